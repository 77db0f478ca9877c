import Verif.Lemmas.RoundedMeasure
import Verif.Lemmas.Times
import Verif.Props.Values
/-
C108: rounding to floating point numbers does not change lengths visibly.
-/

namespace Verif

variable {fl : ℚ → ℚ}

/-- **C108.** Whatever the precision `u` of the numbers is, a measure of rounded numbers raises the errors the exact
measure raises, and otherwise has a value of the same kind and size, every number of which is that of the exact
measure after at most 9 roundings. -/
theorem measure_rounded {u : ℚ} (h0 : 0 ≤ u) (h1 : u < 1) (hfl : ∀ x, |fl x - x| ≤ u * |x|) (m : MVars)
    (un : MUnit) (v : TVal) :
    (∀ e, measureRounded fl m un v = .error e ↔ measureVal m un v = .error e) ∧
    (∀ a, measureVal m un v = .ok a →
      ∃ b, measureRounded fl m un v = .ok b ∧ a.Within (1 / (1 - u) ^ 9 - 1) b) := by
  have h := measure_near h0 h1 hfl m un v
  cases e : measureVal m un v <;> cases e' : measureRounded fl m un v <;> rw [e, e'] at h
  · have h : _ = _ := h
    subst h
    exact ⟨fun e => Iff.rfl, fun a ha => by simp at ha⟩
  · exact h.elim
  · exact h.elim
  · refine ⟨fun e => by simp, fun a ha => ⟨_, rfl, ?_⟩⟩
    rw [Except.ok.injEq] at ha
    subst ha
    exact TVal.Rel.to_within (h.imp (fun x y r => r.within h0 h1))

/-- **C108.** With Python's floats, of 53 bits, every number differs by less than one part in 10^15. -/
theorem measure_rounded_53 (h : RoundsTo53 fl) (m : MVars) (un : MUnit) (v a : TVal)
    (ha : measureVal m un v = .ok a) :
    ∃ b, measureRounded fl m un v = .ok b ∧ a.Within (1 / 10 ^ 15) b := by
  obtain ⟨b, hb, hab⟩ := (measure_rounded (u := 1 / 2 ^ 53) (by norm_num) (by norm_num)
    (fun x => (h x).trans_eq (by ring)) m un v).2 a ha
  exact ⟨b, hb, TVal.Within.mono (by norm_num) hab⟩

/-- **C108.** The same length in two units has nearly the same value with Python's floats: an inch is 72 points or
2.54 centimetres, a centimetre 10 millimetres, and a kilometre 100000 centimetres, up to 3 parts in 10^15 (and the
evaluation in one unit raises errors exactly if that in the other does). -/
theorem units_rounded (h : RoundsTo53 fl) (m : MVars) (v : TVal) (un un' : MUnit) (c : ℚ)
    (hc : (un, un', c) ∈ [(MUnit.inch, MUnit.point, (72 : ℚ)), (.inch, .centimeter, 254 / 100),
      (.centimeter, .millimeter, 10), (.kilometer, .centimeter, 100000)]) :
    (∀ e, measureRounded fl m un v = .error e ↔ measureRounded fl m un' (v.scaleBy c) = .error e) ∧
    (∀ a, measureRounded fl m un v = .ok a →
      ∃ b, measureRounded fl m un' (v.scaleBy c) = .ok b ∧ a.Within (3 / 10 ^ 15) b) := by
  have heq : measureVal m un v = measureVal m un' (v.scaleBy c) := by
    obtain ⟨e1, e2, e3, e4⟩ := units_consistent_partial m v
    simp only [List.mem_cons, Prod.mk.injEq, List.not_mem_nil, or_false] at hc
    rcases hc with ⟨rfl, rfl, rfl⟩ | ⟨rfl, rfl, rfl⟩ | ⟨rfl, rfl, rfl⟩ | ⟨rfl, rfl, rfl⟩
    · exact e1
    · exact e2
    · exact e3
    · exact e4
  have hfl : ∀ x, |fl x - x| ≤ 1 / 2 ^ 53 * |x| := fun x => (h x).trans_eq (by ring)
  have E := (measure_rounded (by norm_num) (by norm_num) hfl m un v).1
  have E' := (measure_rounded (by norm_num) (by norm_num) hfl m un' (v.scaleBy c)).1
  refine ⟨fun e => by rw [E, E', heq], fun a ha => ?_⟩
  cases hx : measureVal m un v with
  | error e => rw [(E e).2 hx] at ha; simp at ha
  | ok x =>
    obtain ⟨a', ha', hxa⟩ := measure_rounded_53 h m un v x hx
    obtain ⟨b, hb, hxb⟩ := measure_rounded_53 h m un' (v.scaleBy c) x (heq ▸ hx)
    rw [ha, Except.ok.injEq] at ha'
    subst ha'
    exact ⟨b, hb, TVal.Within.mono (by norm_num) (TVal.Within.trans_near (by norm_num) (by norm_num) hxa hxb)⟩

/-- But it need not be the same number: with 1 dot per inch, 72 points are less than an inch if rounded towards 0. -/
theorem rounded_units_differ : ∃ (fl : ℚ → ℚ) (m : MVars), RoundsTo53 fl ∧
    measureRounded fl m .inch (.num 1) ≠ measureRounded fl m .point (.num 72) := by
  refine ⟨chop 53, dpiVars 1, chop_to53, ?_⟩
  have h1 : measureRounded (chop 53) (dpiVars 1) .inch (.num 1) = .ok (.num 1) := by decide +kernel
  have h2 : measureRounded (chop 53) (dpiVars 1) .point (.num 72) =
      .ok (.num (chop 53 (chop 53 (1 / 72) * 72))) := by decide +kernel
  rw [h1, h2]
  intro h
  simp only [Except.ok.injEq, TVal.num.injEq] at h
  revert h
  decide +kernel

/-- Rows of coordinates in a viewport, in millimetres: rounded, they are other numbers. -/
example : RoundsTo53 (chop 53) ∧
    measureVal demoVars .millimeter (.mat 2 [[1, 2], [3, 7]]) =
      .ok (.mat 2 [[5 / 127, 20 / 127], [15 / 127, 70 / 127]]) ∧
    measureRounded (chop 53) demoVars .millimeter (.mat 2 [[1, 2], [3, 7]]) ≠
      measureVal demoVars .millimeter (.mat 2 [[1, 2], [3, 7]]) :=
  ⟨chop_to53, by decide +kernel⟩

/-- Numbers of 24 bits, and a missing resolution. -/
example : (∀ x, |chop 24 x - x| ≤ 1 / 2 ^ 24 * |x|) ∧ (1 / 2 ^ 24 : ℚ) < 1 ∧
    measureRounded (chop 24) ⟨none, none, none, none, none, []⟩ .inch (.num 1) = .error .valueError :=
  ⟨chop_close 24, by norm_num, rfl⟩

end Verif
