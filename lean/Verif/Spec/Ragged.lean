import Verif.Model.Ragged
/-
What it means for a ragged array to be a list of lists.
-/

namespace Verif

/-- The ragged array holds the items of the lists one after the other, and its table gives the
place of each list. -/
structure RStands {α : Type} (r : Ragged α) (ls : List (List α)) : Prop where
  data : r.data = ls.flatten
  items : ∀ i : Nat, r.items[i]? = (ls[i]?).map (fun l =>
    ((((ls.take i).flatten.length : Nat) : Int), (((ls.take i).flatten.length + l.length : Nat) : Int)))

end Verif
