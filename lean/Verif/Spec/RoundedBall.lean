import Verif.Model.RoundedBall
/-
How near floats are to the formulas of a trackball.
-/

namespace Verif

/-- The length of a quaternion. -/
noncomputable def Quat.size (q : Quat) : ℝ := Real.sqrt (q.dot q)

/-- The lengths that floats compute are off by a part `ε`: quaternions of turns have length 1, products the
product of the lengths, quaternions that are normalised the length 1. -/
structure BallFloats.Within (F : BallFloats) (ε : ℝ) : Prop where
  turn : ∀ x y dx dy, |(F.turn x y dx dy).size - 1| ≤ ε
  prod : ∀ p q, |(F.prod p q).size - p.size * q.size| ≤ ε * (p.size * q.size)
  unit : ∀ q, q.size ≠ 0 → |(F.unit q).size - 1| ≤ ε
  orient : ∀ theta phi, |(F.orient theta phi).size - 1| ≤ ε

end Verif
