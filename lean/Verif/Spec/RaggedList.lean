/-
Assigning several items of a list of lists (C35).
-/

namespace Verif

variable {α : Type}

/-- The place a list index means. -/
def placeOf (n : Nat) (i : Int) : Nat := (if i < 0 then i + (n : Int) else i).toNat

/-- A list of lists after the assignment of items, one after the other. -/
def assignItems (ls : List (List α)) (is : List Int) (vs : List (List α)) : List (List α) :=
  (is.zip vs).foldl (fun acc p => acc.set (placeOf ls.length p.1) p.2) ls

end Verif
