import Verif.Model.Swizzle
/-
Vocabulary of the swizzle and vector conversion properties.
-/

namespace Verif

/-- `Z'` is `Z` with column `cols p` in the place of component `idx p`, and nothing else
changed. -/
def Written (Z : Rows) (idx : List Nat) (cols : List (List ℚ)) (Z' : Rows) : Prop :=
  Z'.length = Z.length ∧
  ∀ (i : Nat) row, Z[i]? = some row → ∃ row', Z'[i]? = some row' ∧ row'.length = row.length ∧
    (∀ (p j : Nat) c, idx[p]? = some j → cols[p]? = some c → row'[j]? = c[i]?) ∧
    ∀ j, j ∉ idx → row'[j]? = row[j]?

/-- `Z` is an array of vectors of `k` components. -/
def IsRows (k : Nat) (Z : Rows) : Prop := ∀ r ∈ Z, r.length = k

/-- The columns of `m` components of rows. -/
def colsOf (m : Nat) (rs : Rows) : List (List ℚ) :=
  (List.range m).map (fun j => rs.map (fun r => r[j]?.getD 0))

end Verif
