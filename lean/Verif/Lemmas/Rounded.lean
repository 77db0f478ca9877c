import Verif.Spec.Rounded
import Mathlib.Tactic.Linarith
import Mathlib.Tactic.Positivity
import Mathlib.Tactic.NormNum
import Mathlib.Tactic.FieldSimp
import Mathlib.Tactic.Ring

namespace Verif

theorem chopPos_bounds (p : Nat) {x : ℚ} (hx : 0 < x) :
    (2 : ℚ) ^ Int.log 2 x ≤ chopPos p x ∧ chopPos p x ≤ x ∧ x - chopPos p x < 2 ^ (Int.log 2 x - p) := by
  have hlo : (2 : ℚ) ^ Int.log 2 x ≤ x := by
    have := Int.zpow_log_le_self (b := 2) (r := x) (by norm_num) hx
    exact_mod_cast this
  have hk : (0 : ℚ) < 2 ^ (Int.log 2 x - p) := zpow_pos (by norm_num) _
  have hkk : (2 : ℚ) ^ ((p : Int) - Int.log 2 x) * 2 ^ (Int.log 2 x - p) = 1 := by
    rw [← zpow_add₀ (by norm_num)]; simp
  have e : x = x * 2 ^ ((p : Int) - Int.log 2 x) * 2 ^ (Int.log 2 x - p) := by
    rw [mul_assoc, hkk, mul_one]
  refine ⟨?_, ?_, ?_⟩
  · have h1 : ((2 : Int) ^ p) ≤ ⌊x * 2 ^ ((p : Int) - Int.log 2 x)⌋ := by
      rw [Int.le_floor]
      push_cast
      have h2 : (2 : ℚ) ^ p = 2 ^ Int.log 2 x * 2 ^ ((p : Int) - Int.log 2 x) := by
        rw [← zpow_add₀ (by norm_num)]
        simp
      rw [h2]
      exact mul_le_mul_of_nonneg_right hlo (zpow_pos (by norm_num) _).le
    have h3 : (2 : ℚ) ^ Int.log 2 x = ((2 : Int) ^ p : Int) * 2 ^ (Int.log 2 x - p) := by
      push_cast
      rw [← zpow_natCast, ← zpow_add₀ (by norm_num)]
      simp
    rw [h3, chopPos]
    exact mul_le_mul_of_nonneg_right (by exact_mod_cast h1) hk.le
  · conv_rhs => rw [e]
    exact mul_le_mul_of_nonneg_right (Int.floor_le _) hk.le
  · conv_lhs => lhs; rw [e]
    rw [chopPos, ← sub_mul]
    have := Int.lt_floor_add_one (x * 2 ^ ((p : Int) - Int.log 2 x))
    nlinarith

theorem chopPos_log (p : Nat) {x : ℚ} (hx : 0 < x) :
    0 < chopPos p x ∧ Int.log 2 (chopPos p x) = Int.log 2 x := by
  obtain ⟨h1, h2, -⟩ := chopPos_bounds p hx
  have h0 : 0 < chopPos p x := lt_of_lt_of_le (zpow_pos (by norm_num) _) h1
  refine ⟨h0, le_antisymm (Int.log_mono_right h0 h2) ?_⟩
  rw [← Int.zpow_le_iff_le_log (by norm_num) h0]
  exact_mod_cast h1

theorem chopPos_idem (p : Nat) {x : ℚ} (hx : 0 < x) : chopPos p (chopPos p x) = chopPos p x := by
  have h := (chopPos_log p hx).2
  conv_lhs => rw [chopPos, h]
  rw [chopPos, mul_assoc, ← zpow_add₀ (by norm_num)]
  simp

theorem chopPos_mono (p : Nat) {x y : ℚ} (hx : 0 < x) (hxy : x ≤ y) : chopPos p x ≤ chopPos p y := by
  have hy := lt_of_lt_of_le hx hxy
  rcases (Int.log_mono_right hx hxy : Int.log 2 x ≤ Int.log 2 y).eq_or_lt with h | h
  · rw [chopPos, chopPos, h]
    have : ⌊x * 2 ^ ((p : Int) - Int.log 2 y)⌋ ≤ ⌊y * 2 ^ ((p : Int) - Int.log 2 y)⌋ :=
      Int.floor_le_floor (mul_le_mul_of_nonneg_right hxy (zpow_pos (by norm_num) _).le)
    exact mul_le_mul_of_nonneg_right (by exact_mod_cast this) (zpow_pos (by norm_num) _).le
  · have h1 : x < 2 ^ (Int.log 2 x + 1) := by
      have := Int.lt_zpow_succ_log_self (b := 2) (by norm_num) x
      exact_mod_cast this
    have h2 : (2 : ℚ) ^ (Int.log 2 x + 1) ≤ 2 ^ Int.log 2 y := zpow_le_zpow_right₀ (by norm_num) (by omega)
    linarith [(chopPos_bounds p hx).2.1, (chopPos_bounds p hy).1]

theorem chop_pos (p : Nat) {x : ℚ} (hx : 0 < x) : chop p x = chopPos p x := by rw [chop, if_pos hx]

theorem chop_neg (p : Nat) (x : ℚ) : chop p (-x) = -chop p x := by
  rcases lt_trichotomy x 0 with h | h | h
  · rw [chop, chop, if_pos (by linarith), if_neg (by linarith), if_pos h, neg_neg]
  · subst h; simp [chop]
  · rw [chop, chop, if_neg (by linarith), if_pos (by linarith), if_pos h, neg_neg]

theorem chop_nonneg (p : Nat) {x : ℚ} (hx : 0 ≤ x) : 0 ≤ chop p x := by
  rcases hx.eq_or_lt with h | h
  · subst h; simp [chop]
  · rw [chop_pos p h]; exact (chopPos_log p h).1.le

theorem chop_nonneg_mono (p : Nat) {x y : ℚ} (hx : 0 ≤ x) (hxy : x ≤ y) : chop p x ≤ chop p y := by
  rcases hx.eq_or_lt with h | h
  · subst h
    have : chop p 0 = 0 := by simp [chop]
    rw [this]; exact chop_nonneg p hxy
  · rw [chop_pos p h, chop_pos p (lt_of_lt_of_le h hxy)]; exact chopPos_mono p h hxy

theorem chop_mono (p : Nat) : Monotone (chop p) := by
  intro x y hxy
  rcases le_total 0 x with hx | hx
  · exact chop_nonneg_mono p hx hxy
  · rcases le_total 0 y with hy | hy
    · have := chop_nonneg p (x := -x) (by linarith)
      rw [chop_neg] at this
      linarith [chop_nonneg p hy]
    · have := chop_nonneg_mono p (x := -y) (y := -x) (by linarith) (by linarith)
      rw [chop_neg, chop_neg] at this
      linarith

theorem chop_idem (p : Nat) (x : ℚ) : chop p (chop p x) = chop p x := by
  have key : ∀ x : ℚ, 0 < x → chop p (chop p x) = chop p x := fun x h => by
    rw [chop_pos p h, chop_pos p (chopPos_log p h).1, chopPos_idem p h]
  rcases lt_trichotomy x 0 with h | h | h
  · have := key (-x) (by linarith)
    rw [chop_neg, chop_neg] at this
    linarith
  · subst h; simp [chop]
  · exact key x h

theorem chop_close (p : Nat) (x : ℚ) : |chop p x - x| ≤ (1 / 2 ^ p) * |x| := by
  have key : ∀ x : ℚ, 0 < x → |chop p x - x| ≤ (1 / 2 ^ p) * |x| := fun x h => by
    obtain ⟨h1, h2, h3⟩ := chopPos_bounds p h
    have hlo : (2 : ℚ) ^ Int.log 2 x ≤ x := by
      have := Int.zpow_log_le_self (b := 2) (r := x) (by norm_num) h
      exact_mod_cast this
    rw [chop_pos p h, abs_of_nonpos (by linarith), abs_of_pos h]
    have e : (2 : ℚ) ^ (Int.log 2 x - p) = 1 / 2 ^ p * 2 ^ Int.log 2 x := by
      rw [zpow_sub₀ (by norm_num), zpow_natCast]; ring
    have : (1 / 2 ^ p : ℚ) * 2 ^ Int.log 2 x ≤ 1 / 2 ^ p * x :=
      mul_le_mul_of_nonneg_left hlo (by positivity)
    rw [e] at h3
    linarith
  rcases lt_trichotomy x 0 with h | h | h
  · have := key (-x) (by linarith)
    rw [chop_neg, abs_neg] at this
    rwa [show -chop p x - -x = -(chop p x - x) by ring, abs_neg] at this
  · subst h; simp [chop]
  · exact key x h

/-- An integer below `2 ^ (p + 1)` is not changed. -/
theorem chop_int (p n : Nat) (hn : 0 < n) (h : Nat.log 2 n ≤ p) : chop p n = n := by
  have hpos : (0 : ℚ) < n := by exact_mod_cast hn
  rw [chop_pos p hpos, chopPos, Int.log_natCast]
  have e : ((p : Int) - (Nat.log 2 n : Nat)) = ((p - Nat.log 2 n : Nat) : Int) := by omega
  have e2 : (((Nat.log 2 n : Nat) : Int) - p) = -((p - Nat.log 2 n : Nat) : Int) := by omega
  rw [e, e2, zpow_neg, zpow_natCast]
  have : ((n : ℚ) * 2 ^ (p - Nat.log 2 n)) = ((n * 2 ^ (p - Nat.log 2 n) : Int) : ℚ) := by push_cast; rfl
  rw [this, Int.floor_intCast]
  push_cast
  field_simp

theorem chop_rounds (p : Nat) (hp : 2 ≤ p) : Rounds (chop p) (1 / 2 ^ p) where
  mono := chop_mono p
  idem := chop_idem p
  close := chop_close p
  one := by
    have := chop_int p 1 (by norm_num) (by simp)
    simpa using this
  five := by
    have := chop_int p 5 (by norm_num) (by
      have : Nat.log 2 5 = 2 := by decide +kernel
      omega)
    simpa using this

theorem Rounds.zero {fl : ℚ → ℚ} {u : ℚ} (h : Rounds fl u) : fl 0 = 0 := by
  have := h.close 0
  simpa using this

theorem Rounds.bounds {fl : ℚ → ℚ} {u : ℚ} (h : Rounds fl u) {x : ℚ} (hx : 0 ≤ x) :
    (1 - u) * x ≤ fl x ∧ fl x ≤ (1 + u) * x := by
  have := abs_le.mp (h.close x)
  rw [abs_of_nonneg hx] at this
  constructor <;> nlinarith [this.1, this.2]

end Verif
