import Verif.Model.Cloud
/-! # Parts of a point cloud -/

namespace Verif

variable {K C : Type} [LinearOrder K]

/-- Strictly between the bounds that are given. -/
def Between (b : Option K × Option K) (v : K) : Prop :=
  (∀ a, b.1 = some a → a < v) ∧ (∀ c, b.2 = some c → v < c)

/-- In the box. -/
def InBox (x y z : Option K × Option K) (p : CloudPt K) : Prop :=
  Between x p.1 ∧ Between y p.2.1 ∧ Between z p.2.2

instance (b : Option K × Option K) (v : K) : Decidable (Between b v) :=
  match b with
  | (none, none) => isTrue ⟨by simp, by simp⟩
  | (some a, none) => decidable_of_iff (a < v) (by simp [Between])
  | (none, some c) => decidable_of_iff (v < c) (by simp [Between])
  | (some a, some c) => decidable_of_iff (a < v ∧ v < c) (by simp [Between])

instance (x y z : Option K × Option K) (p : CloudPt K) : Decidable (InBox x y z p) := by
  unfold InBox; exact inferInstance

/-- What a random choice without replacement gives: `k` different indices below `n`. -/
def IsChoice (choice : Nat → Nat → List Nat) : Prop :=
  ∀ n k, k ≤ n → (choice n k).length = k ∧ (choice n k).Nodup ∧ ∀ i ∈ choice n k, i < n

/-- All six bounds are given. -/
def Closed6 (x y z : Option K × Option K) : Prop :=
  x.1.isSome ∧ x.2.isSome ∧ y.1.isSome ∧ y.2.isSome ∧ z.1.isSome ∧ z.2.isSome

end Verif
