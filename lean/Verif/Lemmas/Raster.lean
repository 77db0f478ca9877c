import Verif.Spec.Raster
import Mathlib.Data.Int.Log
import Mathlib.Algebra.Order.Round
import Mathlib.Tactic.Linarith
import Mathlib.Tactic.Ring
import Mathlib.Tactic.NormNum
import Mathlib.Tactic.Positivity
import Mathlib.Tactic.FieldSimp
/-! Lemmas on rounding and on pictures (C88). -/

namespace Verif

/-- There is such a rounding. -/
theorem nearest64_exists : ∃ rnd, Nearest64 rnd := by
  refine ⟨fun q => round (q / 2 ^ (Int.log 2 q - 52)) * 2 ^ (Int.log 2 q - 52), fun q hq => ?_⟩
  have h2 : (2 : ℚ) ≠ 0 := by norm_num
  have hpos : (0 : ℚ) < 2 ^ (Int.log 2 q - 52) := zpow_pos (by norm_num) _
  refine ⟨Int.log 2 q - 52, ?_, ?_, round (q / 2 ^ (Int.log 2 q - 52)), rfl, ?_⟩
  · have := Int.zpow_log_le_self (b := 2) (R := ℚ) (by norm_num) hq
    rw [← zpow_natCast, ← zpow_add₀ h2]
    have hz : ((52 : ℕ) : ℤ) + (Int.log 2 q - 52) = Int.log 2 q := by omega
    rw [hz]
    exact_mod_cast this
  · have := Int.lt_zpow_succ_log_self (b := 2) (R := ℚ) (by norm_num) q
    rw [← zpow_natCast, ← zpow_add₀ h2]
    have hz : ((53 : ℕ) : ℤ) + (Int.log 2 q - 52) = Int.log 2 q + 1 := by omega
    rw [hz]
    exact_mod_cast this
  · have h := abs_sub_round (q / 2 ^ (Int.log 2 q - 52))
    have he : (round (q / 2 ^ (Int.log 2 q - 52)) : ℚ) * 2 ^ (Int.log 2 q - 52) - q =
        -(q / 2 ^ (Int.log 2 q - 52) - round (q / 2 ^ (Int.log 2 q - 52))) * 2 ^ (Int.log 2 q - 52) := by
      field_simp
      ring
    dsimp only
    rw [he, abs_mul, abs_neg, abs_of_pos hpos]
    nlinarith

theorem nearest_relative {rnd : ℚ → ℚ} (h : Nearest64 rnd) {q : ℚ} (hq : 0 < q) :
    |rnd q - q| ≤ q / 2 ^ 53 := by
  obtain ⟨e, h1, _, m, _, h3⟩ := h q hq
  refine h3.trans ?_
  have : (2 : ℚ) ^ e ≤ q / 2 ^ 52 := by
    rw [le_div_iff₀ (by positivity)]
    linarith
  have h53 : q / 2 ^ 53 = q / 2 ^ 52 / 2 := by
    rw [div_div]
    norm_num
  rw [h53]
  linarith

theorem nearest_exact {rnd : ℚ → ℚ} (h : Nearest64 rnd) {m : ℕ} (hm : 0 < m) (hm2 : m < 2 ^ 53) (E : ℤ) :
    rnd (m * 2 ^ E) = m * 2 ^ E := by
  have h2 : (2 : ℚ) ≠ 0 := by norm_num
  have hmq : (0 : ℚ) < m := by exact_mod_cast hm
  obtain ⟨e, h1, _, n, h3, h4⟩ := h (m * 2 ^ E) (mul_pos hmq (zpow_pos (by norm_num) _))
  have hle : e ≤ E := by
    by_contra hlt
    push_neg at hlt
    have : (2 : ℚ) ^ (E + 1) ≤ 2 ^ e := zpow_le_zpow_right₀ (by norm_num) (by omega)
    rw [zpow_add₀ h2, zpow_one] at this
    have hm' : (m : ℚ) < 2 ^ 53 := by exact_mod_cast hm2
    have hE : (0 : ℚ) < 2 ^ E := zpow_pos (by norm_num) _
    nlinarith
  obtain ⟨k, hk⟩ : ∃ k : ℕ, E = e + k := ⟨(E - e).toNat, by omega⟩
  have hpos : (0 : ℚ) < 2 ^ e := zpow_pos (by norm_num) _
  have hq : (m : ℚ) * 2 ^ E = ((m * 2 ^ k : ℕ) : ℚ) * 2 ^ e := by
    rw [hk, zpow_add₀ h2, zpow_natCast]
    push_cast
    ring
  rw [hq] at h3 h4 ⊢
  rw [h3] at h4 ⊢
  rw [← sub_mul, abs_mul, abs_of_pos hpos] at h4
  have h5 : |(n : ℚ) - ((m * 2 ^ k : ℕ) : ℚ)| ≤ 1 / 2 := by
    by_contra hc
    push_neg at hc
    nlinarith
  have h6 : |n - ((m * 2 ^ k : ℕ) : ℤ)| < 1 := by
    have : ((|n - ((m * 2 ^ k : ℕ) : ℤ)| : ℤ) : ℚ) ≤ 1 / 2 := by
      rw [Int.cast_abs]
      push_cast at h5 ⊢
      exact h5
    by_contra hc
    push_neg at hc
    have hc' : (1 : ℚ) ≤ ((|n - ((m * 2 ^ k : ℕ) : ℤ)| : ℤ) : ℚ) := by exact_mod_cast hc
    linarith
  have h7 : n = ((m * 2 ^ k : ℕ) : ℤ) := by
    rw [Int.abs_lt_one_iff] at h6
    omega
  rw [h7]
  push_cast
  ring

/-- The value of a rounding, from the exponent and the integer nearest to the digits. -/
theorem nearest_value {rnd : ℚ → ℚ} (h : Nearest64 rnd) {q : ℚ} (e M : ℤ)
    (h1 : (2 : ℚ) ^ 52 * 2 ^ e ≤ q) (h2 : q < (2 : ℚ) ^ 53 * 2 ^ e)
    (h3 : |(M : ℚ) * 2 ^ e - q| < 2 ^ e / 2) : rnd q = M * 2 ^ e := by
  have h20 : (2 : ℚ) ≠ 0 := by norm_num
  have hpos : (0 : ℚ) < 2 ^ e := zpow_pos (by norm_num) _
  have hq : 0 < q := lt_of_lt_of_le (mul_pos (by norm_num) hpos) h1
  obtain ⟨e', g1, g2, n, g3, g4⟩ := h q hq
  have key : ∀ a b : ℤ, (2 : ℚ) ^ 52 * 2 ^ a ≤ q → q < (2 : ℚ) ^ 53 * 2 ^ b → a ≤ b := by
    intro a b ha hb
    by_contra hlt
    push_neg at hlt
    have : (2 : ℚ) ^ (b + 1) ≤ 2 ^ a := zpow_le_zpow_right₀ (by norm_num) (by omega)
    rw [zpow_add₀ h20, zpow_one] at this
    have : (2 : ℚ) ^ 53 * 2 ^ b ≤ 2 ^ 52 * 2 ^ a := by
      have h53 : (2 : ℚ) ^ 53 = 2 ^ 52 * 2 := by norm_num
      rw [h53]
      nlinarith
    linarith
  have he : e' = e := le_antisymm (key _ _ g1 h2) (key _ _ h1 g2)
  subst he
  rw [g3] at g4 ⊢
  have h5 : |((n - M : ℤ) : ℚ) * 2 ^ e'| < 2 ^ e' := by
    have : ((n - M : ℤ) : ℚ) * 2 ^ e' = (n * 2 ^ e' - q) - (M * 2 ^ e' - q) := by push_cast; ring
    rw [this]
    refine lt_of_le_of_lt (abs_sub _ _) ?_
    linarith
  rw [abs_mul, abs_of_pos hpos] at h5
  have h6 : |((n - M : ℤ) : ℚ)| < 1 := by
    by_contra hc
    push_neg at hc
    nlinarith
  have h7 : |n - M| < 1 := by
    rw [← Int.cast_abs] at h6
    exact_mod_cast h6
  rw [Int.abs_lt_one_iff] at h7
  have : n = M := by omega
  rw [this]

theorem rawBytes_length (draw : Nat → Nat → Nat → Nat → Nat → Nat) (W H : Nat) :
    (rawBytes draw W H).length = H * W * 4 := by simp [rawBytes]

theorem rawBytes_item (draw : Nat → Nat → Nat → Nat → Nat → Nat) (W H n k : Nat) (hn : n < H * W)
    (hk : k < 4) : (rawBytes draw W H)[n * 4 + k]? = some (draw W H (n / W) (n % W) k) := by
  have h1 : n * 4 + k < H * W * 4 := by omega
  have h2 : (n * 4 + k) / 4 = n := by omega
  have h3 : (n * 4 + k) % 4 = k := by omega
  have h4 : (n * 4 + k) / (W * 4) = n / W := by
    rw [Nat.mul_comm W 4, ← Nat.div_div_eq_div_mul, h2]
  simp [rawBytes, List.getElem?_map, List.getElem?_range h1, h2, h3, h4]

end Verif
