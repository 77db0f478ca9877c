import Verif.Model.Checker
/-
What the check of output files should accept.
-/

namespace Verif

/-- The number a value is equal to in Python: `True == 1`. -/
def Js.numeric : Js → Option ℚ
  | .bool b => some (if b then 1 else 0)
  | .num q => some q
  | _ => none

mutual
/-- Two JSON values are the same but for the order of the keys of objects. -/
inductive DeepEq : Js → Js → Prop
  | null : DeepEq .null .null
  | bool (b : Bool) : DeepEq (.bool b) (.bool b)
  | num (q : ℚ) : DeepEq (.num q) (.num q)
  | str (s : String) : DeepEq (.str s) (.str s)
  | arr {l m : List Js} : DeepEqAll l m → DeepEq (.arr l) (.arr m)
  | obj {l m : List (String × Js)} : DeepEqItems l m → DeepEq (.obj l) (.obj m)
/-- Element by element. -/
inductive DeepEqAll : List Js → List Js → Prop
  | nil : DeepEqAll [] []
  | cons {x y : Js} {xs ys : List Js} : DeepEq x y → DeepEqAll xs ys → DeepEqAll (x :: xs) (y :: ys)
/-- Each item has its partner, in any order. -/
inductive DeepEqItems : List (String × Js) → List (String × Js) → Prop
  | nil : DeepEqItems [] []
  | cons {k : String} {x y : Js} {xs ys zs : List (String × Js)} : DeepEq x y →
      DeepEqItems xs (ys ++ zs) → DeepEqItems ((k, x) :: xs) (ys ++ (k, y) :: zs)
end

mutual
/-- Two JSON values have the same elements and items, in any order, at any depth; numbers and
booleans that are equal in Python, and the two empty collections, count as the same. -/
inductive SameJs : Js → Js → Prop
  | null : SameJs .null .null
  | number {a b : Js} {q : ℚ} : a.numeric = some q → b.numeric = some q → SameJs a b
  | str (s : String) : SameJs (.str s) (.str s)
  | arr {l m : List Js} : SameAll l m → SameJs (.arr l) (.arr m)
  | obj {l m : List (String × Js)} : SameItems l m → SameJs (.obj l) (.obj m)
  | emptyArr : SameJs (.arr []) (.obj [])
  | emptyObj : SameJs (.obj []) (.arr [])
/-- Each element has its partner, in any order. -/
inductive SameAll : List Js → List Js → Prop
  | nil : SameAll [] []
  | cons {x y : Js} {xs ys zs : List Js} : SameJs x y →
      SameAll xs (ys ++ zs) → SameAll (x :: xs) (ys ++ y :: zs)
/-- Each item has its partner, in any order. -/
inductive SameItems : List (String × Js) → List (String × Js) → Prop
  | nil : SameItems [] []
  | cons {k : String} {x y : Js} {xs ys zs : List (String × Js)} : SameJs x y →
      SameItems xs (ys ++ zs) → SameItems ((k, x) :: xs) (ys ++ (k, y) :: zs)
end

mutual
/-- Keys are unique, as in every dictionary. -/
def Js.WF : Js → Prop
  | .arr l => Js.WFAll l
  | .obj l => (l.map Prod.fst).Nodup ∧ Js.WFItems l
  | _ => True
/-- All elements. -/
def Js.WFAll : List Js → Prop
  | [] => True
  | x :: xs => x.WF ∧ Js.WFAll xs
/-- All values. -/
def Js.WFItems : List (String × Js) → Prop
  | [] => True
  | (_, x) :: xs => x.WF ∧ Js.WFItems xs
end

/-- A comparison raises. -/
def Raises (r : Except Err Bool) : Prop := ∀ b, r ≠ .ok b

/-- What `sorted` does, whatever its algorithm: the result has the same elements, and no element
is less than the one before it (they have been compared); it raises only if some comparison of
two elements raises, and it does raise when all of them do. -/
structure SortSpec (sort : SortFn) : Prop where
  perm : ∀ l m, sort l = .ok m → m.Perm l
  sorted : ∀ l m, sort l = .ok m → m.IsChain (fun x y => y.lt x = .ok false)
  total : ∀ l : List Reordered, l.Pairwise (fun x y => ¬ Raises (x.lt y) ∧ ¬ Raises (y.lt x)) →
    ∃ m, sort l = .ok m
  raises : ∀ l : List Reordered, 2 ≤ l.length →
    l.Pairwise (fun x y => Raises (x.lt y) ∧ Raises (y.lt x)) → ∃ e, sort l = .error e

/-- The output file matches the expected file called `name`: images are similar, JSON files have
the same content up to order. -/
def FileMatches {Img : Type} (score : Img → Img → Except Err ℚ) (name : String)
    (x y : OutFile Img) : Prop :=
  (".png".toList <:+ name.toList → ∃ i j s, x.image = .ok i ∧ y.image = .ok j ∧
    score i j = .ok s ∧ 99 / 100 ≤ s) ∧
  (".json".toList <:+ name.toList → ∃ a b, x.json = .ok a ∧ y.json = .ok b ∧ SameJs a b)

end Verif
