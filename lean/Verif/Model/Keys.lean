import Verif.Model.Py
/-
Objects as values: equality, hashes, and dictionaries whose keys are objects
(gsp/object.py:82-93, gsp_matplotlib/visual/*.py).
-/

namespace Verif

/-- The value of an attribute: a value of another library or of Python (a number, a text, a
container, a figure), an object, or an array given by its items. -/
inductive AVal where
  | opaque (n : Nat)
  | ref (r : Nat)
  | array (l : List Int)
deriving DecidableEq, Repr

/-- An object with its attributes, in the order in which they were set (`vars`), without `_id`. -/
structure KObj where
  id : Int
  cls : String
  attrs : Dict String AVal
deriving DecidableEq, Repr

/-- The loop over the attributes of the first object (gsp/object.py:89-92): a missing attribute of
the second raises `AttributeError`. -/
def sameAttrs (eq : AVal → AVal → Except Err Bool) (other : Dict String AVal) :
    Dict String AVal → Except Err Bool
  | [] => .ok true
  | (k, a) :: as =>
    match dget other k with
    | none => .error .attributeError
    | some b =>
      match eq a b with
      | .error e => .error e
      | .ok false => .ok false
      | .ok true => sameAttrs eq other as

/-- The truth of `a == b` for two attributes (`not (a != b)`), and for two objects
`Object.__eq__` (gsp/object.py:85-93). `cmp` compares values of other libraries, where an exception
is possible. The truth of a comparison of arrays is a `ValueError` unless they have one item (for
none, as of NumPy 2.2; before, it was false with a warning);
shapes that do not fit raise the same. `fuel` bounds the nesting: Python raises `RecursionError`. -/
def eqVal (cmp : Nat → Nat → Except Err Bool) (h : List KObj) : Nat → AVal → AVal → Except Err Bool
  | 0, _, _ => .error .recursion
  | fuel + 1, a, b =>
    match a, b with
    | .opaque m, .opaque n => cmp m n
    | .ref r, .ref s =>
      match h[r]?, h[s]? with
      | some x, some y =>
        if x.cls = y.cls then sameAttrs (eqVal cmp h fuel) y.attrs x.attrs else .ok false
      | _, _ => .error .attributeError
    | .array l, .array m => if l.length = 1 ∧ m.length = 1 then .ok (l == m) else .error .valueError
    | .array l, _ => if l.length = 1 then .ok false else .error .valueError
    | _, .array l => if l.length = 1 then .ok false else .error .valueError
    | _, _ => .ok false

/-- `Object.__hash__` (gsp/object.py:82-83). Identifiers are small: Python takes them modulo a
large prime. -/
def hashOf (h : List KObj) (r : Nat) : Int := (h[r]?.map KObj.id).getD 0

/-- A Python dictionary with objects as keys: each entry keeps the hash its key had when it was
added. -/
abbrev PDict (ν : Type) := List (Int × Nat × ν)

/-- Looking up a key: among the entries with its hash, the first whose key is the object itself or
is equal to it. `eq` compares the key of an entry with the object. -/
def pfind {ν : Type} (eq : Nat → Nat → Except Err Bool) (hash : Int) (x : Nat) :
    PDict ν → Except Err (Option ν)
  | [] => .ok none
  | (hk, k, v) :: d =>
    if hk = hash then
      if k = x then .ok (some v)
      else match eq k x with
        | .error e => .error e
        | .ok true => .ok (some v)
        | .ok false => pfind eq hash x d
    else pfind eq hash x d

/-- What happens to the objects and to one visual. -/
inductive KOp where
  | make (cls : String) (attrs : Dict String AVal)    -- `Object.__init__` (gsp/object.py:66-69)
  | setAttr (r : Nat) (k : String) (v : AVal)
  | setId (r : Nat) (id : Int)                        -- gsp/object.py:75-80
  | render (viewport : Nat)
deriving DecidableEq, Repr

/-- The objects, the counter of identifiers, the dictionary `_viewports` of the visual, and the
collections it made: the viewport each was added to. -/
structure KState where
  heap : List KObj
  counter : Nat
  dict : PDict Nat
  made : List Nat
deriving DecidableEq, Repr

/-- Rendering: `if viewport not in self._viewports` a collection is made for it
(gsp_matplotlib/visual/pixels.py:46-51 and the same lines of the other visuals), then
`self._viewports[viewport]` is the collection to be updated. The result is its number. -/
def renderOn (cmp : Nat → Nat → Except Err Bool) (fuel : Nat) (s : KState) (v : Nat) :
    KState × Except Err Nat :=
  match pfind (fun k x => eqVal cmp s.heap fuel (.ref k) (.ref x)) (hashOf s.heap v) v s.dict with
  | .error e => (s, .error e)
  | .ok (some n) => (s, .ok n)
  | .ok none =>
    ({ s with dict := s.dict ++ [(hashOf s.heap v, v, s.made.length)], made := s.made ++ [v] },
      .ok s.made.length)

/-- One operation; the number of the collection used by `render`. -/
def kStep (cmp : Nat → Nat → Except Err Bool) (fuel : Nat) (s : KState) :
    KOp → KState × Option (Except Err Nat)
  | .make cls attrs =>
    ({ s with heap := s.heap ++ [⟨1 + s.counter, cls, attrs⟩], counter := s.counter + 1 }, none)
  | .setAttr r k v =>
    ({ s with heap := s.heap.modify r (fun o => { o with attrs := dset o.attrs k v }) }, none)
  | .setId r id => ({ s with heap := s.heap.modify r (fun o => { o with id := id }) }, none)
  | .render v => ((renderOn cmp fuel s v).1, some (renderOn cmp fuel s v).2)

/-- The collections used by the renders of a history. -/
def kRun (cmp : Nat → Nat → Except Err Bool) (fuel : Nat) (s : KState) :
    List KOp → KState × List (Except Err Nat)
  | [] => (s, [])
  | op :: ops =>
    let r := kStep cmp fuel s op
    let t := kRun cmp fuel r.1 ops
    (t.1, r.2.toList ++ t.2)

end Verif
