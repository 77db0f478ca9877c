import Verif.Spec.RoundedMeasure
import Mathlib.Tactic.Linarith
import Mathlib.Tactic.NormNum
import Mathlib.Tactic.Positivity
import Mathlib.Tactic.FieldSimp
import Mathlib.Tactic.Ring
/-
Relative errors of several roundings.
-/

namespace Verif

/-- `y` is `x` after at most `k` roundings of relative error `u`. -/
def NearBy {K : Type} [Field K] [LinearOrder K] (u : K) (k : Nat) (x y : K) : Prop := ∃ t, (1 - u) ^ k ≤ t ∧ t * (1 - u) ^ k ≤ 1 ∧ y = x * t

section
variable {K : Type} [Field K] [LinearOrder K] [IsStrictOrderedRing K] {u : K} (h0 : 0 ≤ u) (h1 : u < 1)
include h0 h1

theorem NearBy.refl (x : K) : NearBy u 0 x x := ⟨1, by simp, by simp, by simp⟩

theorem pow_pos' (k : Nat) : 0 < (1 - u) ^ k := pow_pos (by linarith) k

theorem NearBy.mono {k l : Nat} (hkl : k ≤ l) {x y : K} (h : NearBy u k x y) : NearBy u l x y := by
  obtain ⟨t, a, b, rfl⟩ := h
  have hp : (1 - u) ^ l ≤ (1 - u) ^ k := pow_le_pow_of_le_one (by linarith) (by linarith) hkl
  have ht : 0 ≤ t := (pow_pos' h0 h1 k).le.trans a
  exact ⟨t, hp.trans a, (mul_le_mul_of_nonneg_left hp ht).trans b, rfl⟩

theorem NearBy.mul {k l : Nat} {x y z w : K} (h : NearBy u k x y) (h' : NearBy u l z w) :
    NearBy u (k + l) (x * z) (y * w) := by
  obtain ⟨t, a, b, rfl⟩ := h
  obtain ⟨s, c, d, rfl⟩ := h'
  have pk := pow_pos' h0 h1 k
  have pl := pow_pos' h0 h1 l
  have ht : 0 < t := lt_of_lt_of_le pk a
  have hs : 0 < s := lt_of_lt_of_le pl c
  refine ⟨t * s, ?_, ?_, by ring⟩
  · rw [pow_add]
    exact mul_le_mul a c pl.le ht.le
  · rw [pow_add]
    calc t * s * ((1 - u) ^ k * (1 - u) ^ l) = (t * (1 - u) ^ k) * (s * (1 - u) ^ l) := by ring
      _ ≤ 1 * 1 := mul_le_mul b d (by positivity) (by norm_num)
      _ = 1 := by norm_num

theorem NearBy.inv {k : Nat} {x y : K} (h : NearBy u k x y) : NearBy u k x⁻¹ y⁻¹ := by
  obtain ⟨t, a, b, rfl⟩ := h
  have pk := pow_pos' h0 h1 k
  have ht : 0 < t := lt_of_lt_of_le pk a
  refine ⟨t⁻¹, ?_, ?_, by rw [mul_inv]⟩
  · rw [le_inv_comm₀ pk ht, ← one_div, le_div_iff₀ pk]
    exact b
  · rw [inv_mul_le_iff₀ ht, mul_one]
    exact a

theorem NearBy.div {k l : Nat} {x y z w : K} (h : NearBy u k x y) (h' : NearBy u l z w) :
    NearBy u (k + l) (x / z) (y / w) := by
  rw [div_eq_mul_inv, div_eq_mul_inv]
  exact h.mul h0 h1 (h'.inv h0 h1)

theorem NearBy.round {fl : K → K} (hfl : ∀ x, |fl x - x| ≤ u * |x|) {k : Nat} {x y : K} (h : NearBy u k x y) :
    NearBy u (k + 1) x (fl y) := by
  have : NearBy u 1 y (fl y) := by
    by_cases hy : y = 0
    · have := hfl y
      rw [hy] at this ⊢
      simp only [abs_zero, mul_zero, sub_zero] at this
      have e : fl 0 = 0 := abs_eq_zero.1 (le_antisymm this (abs_nonneg _))
      exact ⟨1, by simp [h0], by simp [h0], by rw [e]; simp⟩
    · refine ⟨fl y / y, ?_, ?_, by field_simp⟩
      · have h2 := hfl y
        have h3 : |fl y / y - 1| ≤ u := by
          have : fl y / y - 1 = (fl y - y) / y := by field_simp
          rw [this, abs_div, div_le_iff₀ (abs_pos.2 hy)]
          exact h2
        have := (abs_le.1 h3).1
        simp only [pow_one]
        linarith
      · have h2 := hfl y
        have h3 : |fl y / y - 1| ≤ u := by
          have : fl y / y - 1 = (fl y - y) / y := by field_simp
          rw [this, abs_div, div_le_iff₀ (abs_pos.2 hy)]
          exact h2
        have := (abs_le.1 h3).2
        simp only [pow_one]
        nlinarith
  obtain ⟨t, a, b, e⟩ := h
  obtain ⟨s, c, d, e'⟩ := this
  have := NearBy.mul h0 h1 (⟨t, a, b, rfl⟩ : NearBy u k x (x * t)) (⟨s, c, d, rfl⟩ : NearBy u 1 1 (1 * s))
  rw [e', e]
  simpa [mul_assoc] using this

theorem NearBy.within {k : Nat} {x y : K} (h : NearBy u k x y) : WithinPart (1 / (1 - u) ^ k - 1) x y := by
  obtain ⟨t, a, b, rfl⟩ := h
  have pk := pow_pos' h0 h1 k
  have hp1 : (1 - u) ^ k ≤ 1 := pow_le_one₀ (by linarith) (by linarith)
  unfold WithinPart
  have : x * t - x = (t - 1) * x := by ring
  rw [this, abs_mul]
  apply mul_le_mul_of_nonneg_right _ (abs_nonneg x)
  have hb : t ≤ 1 / (1 - u) ^ k := by rwa [le_div_iff₀ pk]
  rw [abs_le]
  constructor
  · have h2 : 2 ≤ (1 - u) ^ k + 1 / (1 - u) ^ k := by
      have : (1 - u) ^ k + 1 / (1 - u) ^ k - 2 = (1 - (1 - u) ^ k) ^ 2 / (1 - u) ^ k := by
        field_simp
        ring
      have h3 : 0 ≤ (1 - (1 - u) ^ k) ^ 2 / (1 - u) ^ k := by positivity
      linarith
    linarith
  · linarith

end

end Verif
