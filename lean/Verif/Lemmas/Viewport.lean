import Verif.Model.Viewport
import Mathlib.Tactic.Linarith
import Mathlib.Tactic.FieldSimp
import Mathlib.Tactic.Ring
/-
Lemmas on viewports.
-/

namespace Verif

theorem update_ok {v : VPort} {cw ch : ℚ} {x y w h : ℚ} (hx : v.x.part cw = .ok x)
    (hy : v.y.part ch = .ok y) (hw : v.width.part cw = .ok w) (hh : v.height.part ch = .ok h)
    (hn : min (w * cw) (h * ch) ≠ 0) :
    v.update cw ch = .ok { v with
      pos := (x, y, w, h),
      xlim := if h * ch < w * cw then v.zoom * (w * cw) / (h * ch) else v.zoom,
      ylim := if h * ch < w * cw then v.zoom else v.zoom * (h * ch) / (w * cw) } := by
  have hn' : ¬ (if h * ch < w * cw then h * ch else w * cw) = 0 := by
    split
    · rename_i hc; rwa [min_eq_right hc.le] at hn
    · rename_i hc; rwa [min_eq_left (not_lt.1 hc)] at hn
  unfold VPort.update
  simp only [hx, hy, hw, hh, bind, Except.bind, pure, Except.pure, if_neg hn']
  by_cases hc : h * ch < w * cw <;> simp [hc]

/-- A width or a height of 0, the other one being positive or 0. -/
theorem update_flat {v : VPort} {cw ch : ℚ} {x y w h : ℚ} (hx : v.x.part cw = .ok x)
    (hy : v.y.part ch = .ok y) (hw : v.width.part cw = .ok w) (hh : v.height.part ch = .ok h)
    (hn : min (w * cw) (h * ch) = 0) : v.update cw ch = .error .valueError := by
  have hn' : (if h * ch < w * cw then h * ch else w * cw) = 0 := by
    split
    · rename_i hc; rwa [min_eq_right hc.le] at hn
    · rename_i hc; rwa [min_eq_left (not_lt.1 hc)] at hn
  unfold VPort.update
  simp only [hx, hy, hw, hh, bind, Except.bind, hn', if_true]
  rfl

theorem update_inv {v v' : VPort} {cw ch : ℚ} (hu : v.update cw ch = .ok v') :
    ∃ x y w h, v.x.part cw = .ok x ∧ v.y.part ch = .ok y ∧ v.width.part cw = .ok w ∧
      v.height.part ch = .ok h ∧ min (w * cw) (h * ch) ≠ 0 ∧ v' = { v with
      pos := (x, y, w, h),
      xlim := if h * ch < w * cw then v.zoom * (w * cw) / (h * ch) else v.zoom,
      ylim := if h * ch < w * cw then v.zoom else v.zoom * (h * ch) / (w * cw) } := by
  cases hx : v.x.part cw with
  | error e => simp [VPort.update, hx, bind, Except.bind] at hu
  | ok x =>
    cases hy : v.y.part ch with
    | error e => simp [VPort.update, hx, hy, bind, Except.bind] at hu
    | ok y =>
      cases hw : v.width.part cw with
      | error e => simp [VPort.update, hx, hy, hw, bind, Except.bind] at hu
      | ok w =>
        cases hh : v.height.part ch with
        | error e => simp [VPort.update, hx, hy, hw, hh, bind, Except.bind] at hu
        | ok h =>
          have hn : min (w * cw) (h * ch) ≠ 0 := by
            intro hn
            rw [update_flat hx hy hw hh hn] at hu
            cases hu
          rw [update_ok hx hy hw hh hn] at hu
          cases hu
          exact ⟨x, y, w, h, rfl, rfl, rfl, rfl, hn, rfl⟩

theorem make_ok {x y W H cW cH : Extent} {cw ch px py w h : ℚ} (hx : x.part cw = .ok px)
    (hy : y.part ch = .ok py) (hw : (if W.truthy then W else cW).part cw = .ok w)
    (hh : (if H.truthy then H else cH).part ch = .ok h) (hn : min (w * cw) (h * ch) ≠ 0) :
    VPort.make x y W H cW cH cw ch = .ok ⟨x, y, if W.truthy then W else cW,
      if H.truthy then H else cH, (px, py, w, h), 1, 1, 1⟩ := by
  simp only [VPort.make]
  generalize (if W.truthy then W else cW) = W at hw ⊢
  generalize (if H.truthy then H else cH) = H at hh ⊢
  rw [update_ok (v := ⟨x, y, W, H, (0, 0, 1, 1), 1, 1, 1⟩) hx hy hw hh hn]
  rfl

end Verif
