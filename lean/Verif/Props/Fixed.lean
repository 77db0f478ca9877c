import Verif.Spec.Fixed
import Verif.Lemmas.Values
import Verif.Lemmas.Viewport
import Mathlib.Tactic.NormNum
import Mathlib.Tactic.FieldSimp
import Mathlib.Tactic.Ring
import Mathlib.Tactic.Linarith
/-! # C98: lengths given in pixels or inches -/

namespace Verif

/-- What a drawing needs. -/
structure Fixed.Fit (c : ℚ) (s : Fixed) : Prop where
  zoom : s.vp.zoom ≠ 0
  lims : s.vp.pos.2.2.1 * s.cw ≠ 0 → s.vp.pos.2.2.2 * s.ch ≠ 0 → s.vp.xlim ≠ 0 ∧ s.vp.ylim ≠ 0
  mat : s.places ≠ none → Enlarges c s.mat

/-- A position in the plane, enlarged. -/
def enlarged (c : ℚ) : List ℚ → ℚ × ℚ
  | [x, y, _] => (c * x, c * y)
  | _ => (0, 0)

/-- By how much the code makes a unit too long. -/
def MUnit.excess : MUnit → ℚ
  | .meter => 10
  | _ => 1

theorem factor_pixels (dpi : ℚ) (u : MUnit) (x : ℚ) :
    u.factor dpi * x = u.excess * u.pixels dpi x := by
  cases u <;> simp only [MUnit.factor, MUnit.pixels, MUnit.excess] <;> ring

theorem draw_fits {c : ℚ} {u : MUnit} {points : List (List ℚ)} (hp : ∀ r ∈ points, r.length = 3)
    {s s' : Fixed} (h : Enlarges c s.mat)
    (hl : s.vp.pos.2.2.1 * s.cw ≠ 0 → s.vp.pos.2.2.2 * s.ch ≠ 0 → s.vp.xlim ≠ 0 ∧ s.vp.ylim ≠ 0)
    (hs : Fixed.draw u points s = .ok s') :
    s'.vp = s.vp ∧ s'.cw = s.cw ∧ s'.ch = s.ch ∧ s'.dpi = s.dpi ∧ s'.mat = s.mat ∧
      s'.places ≠ none ∧ s'.Keeps (c * u.excess) u points := by
  unfold Fixed.draw at hs
  have hsc : s.vars.scale = if s.vp.pos.2.2.1 * s.cw = 0 ∨ s.vp.pos.2.2.2 * s.ch = 0 then
      .error .zeroDivision else .ok ((s.vp.xlim - -s.vp.xlim) * (1 / (s.vp.pos.2.2.1 * s.cw)),
        (s.vp.ylim - -s.vp.ylim) * (1 / (s.vp.pos.2.2.2 * s.ch)), 0) := rfl
  by_cases hz : s.vp.pos.2.2.1 * s.cw = 0 ∨ s.vp.pos.2.2.2 * s.ch = 0
  · rw [if_pos hz] at hsc
    simp [measureVal, hsc] at hs
  · rw [if_neg hz] at hsc
    rw [not_or] at hz
    obtain ⟨hw, hh⟩ := hz
    obtain ⟨hx, hy⟩ := hl hw hh
    have hrow : ∀ k, ∀ r ∈ points, ∃ x y z, r = [x, y, z] ∧
        (scaleRow ((s.vp.xlim - -s.vp.xlim) * (1 / (s.vp.pos.2.2.1 * s.cw)))
          ((s.vp.ylim - -s.vp.ylim) * (1 / (s.vp.pos.2.2.2 * s.ch))) 0 r).map (k * ·) =
          [k * ((s.vp.xlim - -s.vp.xlim) * (1 / (s.vp.pos.2.2.1 * s.cw)) * x),
           k * ((s.vp.ylim - -s.vp.ylim) * (1 / (s.vp.pos.2.2.2 * s.ch)) * y), 0] := by
      intro k r hr
      have := hp r hr
      match r, this with
      | [x, y, z], _ => exact ⟨x, y, z, rfl, by simp [scaleRow]⟩
    have hm : measureVal s.vars u (.mat 3 points) = .ok (.mat 3 (points.map (fun r =>
        (scaleRow ((s.vp.xlim - -s.vp.xlim) * (1 / (s.vp.pos.2.2.1 * s.cw)))
          ((s.vp.ylim - -s.vp.ylim) * (1 / (s.vp.pos.2.2.2 * s.ch))) 0 r).map
          (u.factor s.dpi * ·)))) := by
      have hres : s.vars.resolution = some s.dpi := rfl
      unfold measureVal
      rw [hsc]
      simp only [scaleVal_mat _ (Or.inr rfl) hp, hres]
      cases u <;> simp [TVal.scaleBy, MUnit.factor, Function.comp_def]
    rw [hm] at hs
    simp only at hs
    have hseen : (points.map (fun r => (scaleRow ((s.vp.xlim - -s.vp.xlim) *
          (1 / (s.vp.pos.2.2.1 * s.cw))) ((s.vp.ylim - -s.vp.ylim) * (1 / (s.vp.pos.2.2.2 * s.ch))) 0
          r).map (u.factor s.dpi * ·))).mapM (seenAt s.mat) =
        .ok ((points.map (fun r => (scaleRow ((s.vp.xlim - -s.vp.xlim) *
          (1 / (s.vp.pos.2.2.1 * s.cw))) ((s.vp.ylim - -s.vp.ylim) * (1 / (s.vp.pos.2.2.2 * s.ch))) 0
          r).map (u.factor s.dpi * ·))).map (enlarged c)) := by
      refine mapM_ok_of_forall (fun r hr => ?_)
      obtain ⟨r', hr', rfl⟩ := List.mem_map.1 hr
      obtain ⟨x, y, z, -, e⟩ := hrow (u.factor s.dpi) r' hr'
      rw [e]
      obtain ⟨h3, h0, h1⟩ := h (u.factor s.dpi * ((s.vp.xlim - -s.vp.xlim) *
        (1 / (s.vp.pos.2.2.1 * s.cw)) * x)) (u.factor s.dpi * ((s.vp.ylim - -s.vp.ylim) *
        (1 / (s.vp.pos.2.2.2 * s.ch)) * y))
      simp only [seenAt, if_neg h3, h0, h1, enlarged]
    rw [hseen] at hs
    simp only [Except.ok.injEq] at hs
    subst hs
    refine ⟨rfl, rfl, rfl, rfl, rfl, by simp, ?_⟩
    intro ps hps
    simp only [Option.some.injEq] at hps
    subst hps
    rw [List.map_map, List.forall₂_map_right_iff, List.forall₂_same]
    intro r hr
    obtain ⟨x, y, z, e1, e2⟩ := hrow (u.factor s.dpi) r hr
    refine ⟨x, y, z, e1, ?_⟩
    simp only [Function.comp, e2, enlarged, Fixed.pixel, Fixed.middle, Prod.mk.injEq, mul_assoc c,
      ← factor_pixels]
    have hw' := mul_ne_zero_iff.1 hw
    have hh' := mul_ne_zero_iff.1 hh
    obtain ⟨hw1, hw2⟩ := hw'
    obtain ⟨hh1, hh2⟩ := hh'
    constructor
    · field_simp
      ring
    · field_simp
      ring

theorem update_lims {v v' : VPort} {cw ch : ℚ} (h : v.update cw ch = .ok v') (hz : v.zoom ≠ 0) :
    v'.zoom = v.zoom ∧
      (v'.pos.2.2.1 * cw ≠ 0 → v'.pos.2.2.2 * ch ≠ 0 → v'.xlim ≠ 0 ∧ v'.ylim ≠ 0) := by
  obtain ⟨x, y, w, hh, _, _, _, _, _, rfl⟩ := update_inv h
  refine ⟨rfl, fun a b => ?_⟩
  simp only at a b ⊢
  split
  · exact ⟨div_ne_zero (mul_ne_zero hz a) b, hz⟩
  · exact ⟨hz, div_ne_zero (mul_ne_zero hz b) a⟩

theorem step_fit {c : ℚ} {u : MUnit} {points : List (List ℚ)} (hp : ∀ r ∈ points, r.length = 3)
    {s s' : Fixed} {e : FixedEvent} (he : e.Fair c) (hf : s.Fit c)
    (hs : Fixed.step u points s e = .ok s') :
    s'.Fit c ∧ ((∀ z, e ≠ .zoom z) → s'.Keeps (c * u.excess) u points) ∧ s'.dpi = s.dpi := by
  cases e with
  | render m =>
    obtain ⟨h1, h2, h3, h4, h5, h6, h7⟩ := draw_fits hp (s := { s with mat := m }) he hf.lims hs
    exact ⟨⟨by rw [h1]; exact hf.zoom, by rw [h1, h2, h3]; exact hf.lims,
      fun _ => by rw [h5]; exact he⟩, fun _ => h7, h4⟩
  | resize cw ch =>
    simp only [Fixed.step] at hs
    split at hs
    · cases hs
    · rename_i vp hv
      obtain ⟨z1, z2⟩ := update_lims hv hf.zoom
      split at hs
      · rename_i hn
        simp only [Except.ok.injEq] at hs
        subst hs
        have hn' : s.places = none := hn
        refine ⟨⟨?_, z2, fun h => absurd hn' h⟩, fun _ => ?_, rfl⟩
        · show vp.zoom ≠ 0
          rw [z1]; exact hf.zoom
        · intro ps hps
          have : s.places = some ps := hps
          rw [hn'] at this; cases this
      · rename_i ps hn
        have hm := hf.mat (by have : s.places = some ps := hn; rw [this]; simp)
        obtain ⟨h1, h2, h3, h4, h5, h6, h7⟩ := draw_fits hp
          (s := { s with vp := vp, cw := cw, ch := ch }) hm z2 hs
        exact ⟨⟨by rw [h1]; show vp.zoom ≠ 0; rw [z1]; exact hf.zoom, by rw [h1, h2, h3]; exact z2,
          fun _ => by rw [h5]; exact hm⟩, fun _ => h7, h4⟩
  | zoom zoom =>
    have hz : zoom ≠ 0 := he
    simp only [Fixed.step, Except.ok.injEq] at hs
    subst hs
    refine ⟨⟨hz, fun a b => ?_, hf.mat⟩, fun h => absurd rfl (h zoom), rfl⟩
    obtain ⟨x, y⟩ := hf.lims a b
    exact ⟨hz, mul_ne_zero hz (div_ne_zero y x)⟩

theorem run_fit {c : ℚ} {u : MUnit} {points : List (List ℚ)} (hp : ∀ r ∈ points, r.length = 3)
    {s s' : Fixed} {es : List FixedEvent} (he : ∀ e ∈ es, e.Fair c) (hf : s.Fit c)
    (hs : Fixed.run u points s es = .ok s') : s'.Fit c ∧ s'.dpi = s.dpi := by
  induction es generalizing s with
  | nil =>
    simp only [Fixed.run, List.foldlM_nil, pure, Except.pure, Except.ok.injEq] at hs
    subst hs
    exact ⟨hf, rfl⟩
  | cons e es ih =>
    simp only [Fixed.run, List.foldlM_cons] at hs
    cases h1 : Fixed.step u points s e with
    | error x => rw [h1] at hs; simp [bind, Except.bind] at hs
    | ok s1 =>
      rw [h1] at hs
      obtain ⟨g1, -, g3⟩ := step_fit hp (he e (by simp)) hf h1
      obtain ⟨k1, k2⟩ := ih (fun x hx => he x (by simp [hx])) g1 hs
      exact ⟨k1, k2.trans g3⟩

theorem run_snoc {u : MUnit} {points : List (List ℚ)} {s s' : Fixed} {es : List FixedEvent}
    {e : FixedEvent} (hs : Fixed.run u points s (es ++ [e]) = .ok s') :
    ∃ t, Fixed.run u points s es = .ok t ∧ Fixed.step u points t e = .ok s' := by
  simp only [Fixed.run, List.foldlM_append, List.foldlM_cons, List.foldlM_nil] at hs ⊢
  cases h : List.foldlM (Fixed.step u points) s es with
  | error x => rw [h] at hs; simp [bind, Except.bind] at hs
  | ok t =>
    rw [h] at hs
    refine ⟨t, rfl, ?_⟩
    cases h' : Fixed.step u points t e with
    | error x => simp [bind, Except.bind, h'] at hs
    | ok w => simpa [bind, Except.bind, h', pure, Except.pure] using hs

/-- A new viewport and a visual that was not rendered yet. -/
def Fixed.new (v : VPort) (cw ch dpi : ℚ) : Fixed := ⟨v, cw, ch, dpi, 1, none⟩

theorem new_fit {x y width height canvasW canvasH : Extent} {cw ch : ℚ} {v : VPort}
    (hv : VPort.make x y width height canvasW canvasH cw ch = .ok v) (c dpi : ℚ) :
    (Fixed.new v cw ch dpi).Fit c := by
  have : v.zoom = 1 ∧ v.xlim = 1 ∧ v.ylim = 1 := by
    unfold VPort.make at hv
    simp only [bind, Except.bind] at hv
    split at hv
    · cases hv
    · rename_i v0 h0
      have := (update_lims h0 (by simp)).1
      simp only [pure, Except.pure, Except.ok.injEq] at hv
      subst hv
      exact ⟨this, rfl, rfl⟩
  obtain ⟨h1, h2, h3⟩ := this
  exact ⟨by simp [Fixed.new, h1], fun _ _ => by simp [Fixed.new, h2, h3], fun h => absurd rfl h⟩

theorem lengths_excess {c : ℚ} {u : MUnit} {points : List (List ℚ)}
    (hp : ∀ r ∈ points, r.length = 3)
    {x y width height canvasW canvasH : Extent} {cw ch dpi : ℚ} {v : VPort}
    (hv : VPort.make x y width height canvasW canvasH cw ch = .ok v) {es : List FixedEvent}
    {e : FixedEvent} (he : ∀ a ∈ es ++ [e], a.Fair c) (hn : ∀ z, e ≠ .zoom z) {s : Fixed}
    (hs : Fixed.run u points (Fixed.new v cw ch dpi) (es ++ [e]) = .ok s) :
    s.Keeps (c * u.excess) u points ∧ s.dpi = dpi := by
  obtain ⟨t, h1, h2⟩ := run_snoc hs
  obtain ⟨f1, f2⟩ := run_fit hp (fun a ha => he a (by simp [ha])) (new_fit hv c dpi) h1
  obtain ⟨g1, g2, g3⟩ := step_fit hp (he e (by simp)) f1 h2
  exact ⟨g2 hn, g3.trans f2⟩

/-- C98. A visual with positions in a unit of length, in any viewport, after any history of renders, new
sizes of the canvas and zooms, the last of which is not a zoom: each of its points shows at its
length in pixels from the middle of the viewport, times the factor by which the matrices enlarge the
plane. -/
theorem lengths_kept_partial {c : ℚ} {u : MUnit} (hu : u ≠ .meter) {points : List (List ℚ)}
    (hp : ∀ r ∈ points, r.length = 3)
    {x y width height canvasW canvasH : Extent} {cw ch dpi : ℚ} {v : VPort}
    (hv : VPort.make x y width height canvasW canvasH cw ch = .ok v) {es : List FixedEvent}
    {e : FixedEvent} (he : ∀ a ∈ es ++ [e], a.Fair c) (hn : ∀ z, e ≠ .zoom z) {s : Fixed}
    (hs : Fixed.run u points (Fixed.new v cw ch dpi) (es ++ [e]) = .ok s) :
    s.Keeps c u points ∧ s.dpi = dpi := by
  have := lengths_excess hp hv he hn hs
  have h1 : u.excess = 1 := by cases u <;> first | rfl | exact absurd rfl hu
  rwa [h1, mul_one] at this

/-- C98, where it fails: meters are shown ten times as long. -/
theorem lengths_meter_fails {c : ℚ} {points : List (List ℚ)} (hp : ∀ r ∈ points, r.length = 3)
    {x y width height canvasW canvasH : Extent} {cw ch dpi : ℚ} {v : VPort}
    (hv : VPort.make x y width height canvasW canvasH cw ch = .ok v) {es : List FixedEvent}
    {e : FixedEvent} (he : ∀ a ∈ es ++ [e], a.Fair c) (hn : ∀ z, e ≠ .zoom z) {s : Fixed}
    (hs : Fixed.run .meter points (Fixed.new v cw ch dpi) (es ++ [e]) = .ok s) :
    s.Keeps (c * 10) .meter points ∧ s.dpi = dpi :=
  lengths_excess hp hv he hn hs

/-- C98, after a zoom of which nobody told the visual: the lengths change by the ratio of the old limits
to the new ones. -/
theorem lengths_zoomed {c : ℚ} {u : MUnit} {points : List (List ℚ)} {s s' : Fixed} {z : ℚ}
    (hk : s.Keeps c u points) (hx : s.vp.xlim ≠ 0) (hy : s.vp.ylim ≠ 0) (hz : z ≠ 0)
    (hs : Fixed.step u points s (.zoom z) = .ok s') :
    s'.Shows (c * (s.vp.xlim / z)) (c * (s.vp.xlim / z)) u points ∧ s'.dpi = s.dpi := by
  simp only [Fixed.step, Except.ok.injEq] at hs
  subst hs
  refine ⟨fun ps hps => ?_, rfl⟩
  refine (hk ps hps).imp ?_
  rintro r p ⟨x, y, w, hr, hp⟩
  refine ⟨x, y, w, hr, ?_⟩
  simp only [Fixed.pixel, Fixed.middle, Prod.mk.injEq] at hp ⊢
  obtain ⟨h1, h2⟩ := hp
  constructor
  · have e1 : p.1 / (2 * s.vp.xlim) * (s.vp.pos.2.2.1 * s.cw) = c * u.pixels s.dpi x := by
      field_simp at h1 ⊢
      linarith
    have : (p.1 + z) / (2 * z) * (s.vp.pos.2.2.1 * s.cw) = s.vp.pos.2.2.1 * s.cw / 2 +
        (p.1 / (2 * s.vp.xlim) * (s.vp.pos.2.2.1 * s.cw)) * (s.vp.xlim / z) := by
      field_simp
      ring
    rw [this, e1]
    ring
  · have e1 : p.2 / (2 * s.vp.ylim) * (s.vp.pos.2.2.2 * s.ch) = c * u.pixels s.dpi y := by
      field_simp at h2 ⊢
      linarith
    have : (p.2 + z * (s.vp.ylim / s.vp.xlim)) / (2 * (z * (s.vp.ylim / s.vp.xlim))) *
        (s.vp.pos.2.2.2 * s.ch) = s.vp.pos.2.2.2 * s.ch / 2 +
        (p.2 / (2 * s.vp.ylim) * (s.vp.pos.2.2.2 * s.ch)) * (s.vp.xlim / z) := by
      field_simp
      ring
    rw [this, e1]
    ring

/-- C98. Without matrices, and with the matrices of the camera of the mode ortho, the plane is not
enlarged. -/
theorem plain_enlarges : Enlarges 1 1 ∧ Enlarges 1 (glmOrtho (-1) 1 (-1) 1 1 100) := by
  constructor <;> intro x y <;>
    simp [glmOrtho, transposeIf, Matrix.mulVec, dotProduct, Fin.sum_univ_four, Matrix.one_apply] <;>
    norm_num

/-- C98, with the camera of the mode perspective, before it is turned: the plane is enlarged by one over
five times the tangent of half of the aperture of 35 degrees, about 0.63. -/
theorem perspective_enlarges {h : ℚ} (hh : h ≠ 0) :
    Enlarges (1 / (5 * h)) (glmFrustum (-h) h (-h) h 1 100 * glmTranslate 0 0 (-5)) := by
  intro x y
  simp [glmFrustum, glmTranslate, transposeIf, Matrix.mulVec, dotProduct, Fin.sum_univ_four,
    Matrix.mul_apply]
  constructor <;> field_simp <;> ring

/-- C98, where it fails: a length shown with the camera of the mode perspective, the one a window has unless
it is asked for another, is not as long as it says. -/
theorem lengths_perspective_fails {h : ℚ} (hh : h ≠ 0) (h5 : h ≠ 1 / 5) {u : MUnit} (hm : u ≠ .meter)
    {points : List (List ℚ)} (hp : ∀ r ∈ points, r.length = 3)
    {x y width height canvasW canvasH : Extent} {cw ch dpi : ℚ} {v : VPort}
    (hr : ∃ r ∈ points, u.pixels dpi (r.headD 0) ≠ 0)
    (hv : VPort.make x y width height canvasW canvasH cw ch = .ok v) {s : Fixed}
    (hs : Fixed.run u points (Fixed.new v cw ch dpi)
      [.render (glmFrustum (-h) h (-h) h 1 100 * glmTranslate 0 0 (-5))] = .ok s) :
    ¬ s.Keeps 1 u points := by
  have hf := perspective_enlarges hh
  obtain ⟨k, hd⟩ := lengths_kept_partial hm (es := []) hp hv (c := 1 / (5 * h))
    (fun e he => by cases List.mem_singleton.1 he; exact hf)
    (fun z => by simp) hs
  obtain ⟨t, h1, h2⟩ := run_snoc (es := []) hs
  obtain ⟨-, -, -, -, -, h6, -⟩ := draw_fits hp
    (s := { t with mat := glmFrustum (-h) h (-h) h 1 100 * glmTranslate 0 0 (-5) }) hf
    (run_fit hp (by simp) (new_fit hv (1 / (5 * h)) dpi) h1).1.lims h2
  obtain ⟨ps, hps⟩ := Option.ne_none_iff_exists'.1 h6
  intro k1
  obtain ⟨r, hr, hx⟩ := hr
  have a := k ps hps
  have b := k1 ps hps
  obtain ⟨i, hi, rfl⟩ := List.getElem_of_mem hr
  have hi' : i < ps.length := a.length_eq ▸ hi
  obtain ⟨x1, y1, z1, e1, p1⟩ := (List.forall₂_iff_get.1 a).2 i hi hi'
  obtain ⟨x2, y2, z2, e2, p2⟩ := (List.forall₂_iff_get.1 b).2 i hi hi'
  rw [List.get_eq_getElem] at e1 e2
  rw [e1] at e2 hx
  cases e2
  rw [p1] at p2
  have := congrArg Prod.fst p2
  simp only [hd, List.headD_cons] at this hx
  have q : (1 / (5 * h)) * u.pixels dpi x1 = 1 * u.pixels dpi x1 := by linarith
  have q' := mul_right_cancel₀ hx q
  rw [div_eq_one_iff_eq (by simpa using hh)] at q'
  exact h5 (by linarith)

/-- The square of examples/segments-fixed-size.py. -/
def fixedSquare : List (List ℚ) := [[-128, -128, 0], [-128, 128, 0], [128, 128, 0], [128, -128, 0]]

/-- Its viewport, on a canvas of 512 by 512. -/
def fixedPort : VPort := ⟨.float 0, .float 0, .float 1, .float 1, (0, 0, 1, 1), 1, 1, 1⟩

/-- What shows of a visual in the middle of its viewport. -/
def Fixed.shown (s : Except Err Fixed) : Option ((ℚ × ℚ) × List (ℚ × ℚ)) :=
  s.toOption.map (fun s => (s.middle, (s.places.getD []).map s.pixel))

example : VPort.make (.float 0) (.float 0) (.float 1) (.float 1) (.int 512) (.int 512) 512 512 =
    .ok fixedPort := by
  norm_num [VPort.make, VPort.update, Extent.truthy, Extent.part, fixedPort, bind, Except.bind, pure,
    Except.pure]

/-- The square in a window that became wide and was zoomed: 128 pixels to each side of the middle. -/
example : Fixed.shown (Fixed.run .pixel fixedSquare (Fixed.new fixedPort 512 512 100)
    [.render 1, .resize 1024 512, .zoom (9 / 10), .render (glmOrtho (-1) 1 (-1) 1 1 100)]) =
    some ((512, 256), [(384, 128), (384, 384), (640, 384), (640, 128)]) := by decide +kernel

/-- The square without the last render: the wheel changed its size. -/
example : Fixed.shown (Fixed.run .pixel fixedSquare (Fixed.new fixedPort 512 512 100)
    [.render 1, .zoom (1 / 2)]) =
    some ((256, 256), [(0, 0), (0, 512), (512, 512), (512, 0)]) := by decide +kernel

/-- The square seen by the camera of the mode perspective. -/
example : Fixed.shown (Fixed.run .pixel fixedSquare (Fixed.new fixedPort 512 512 100)
    [.render (glmFrustum (-(3 / 10)) (3 / 10) (-(3 / 10)) (3 / 10) 1 100 * glmTranslate 0 0 (-5))]) =
    some ((256, 256), [(512 / 3, 512 / 3), (512 / 3, 1024 / 3), (1024 / 3, 1024 / 3),
      (1024 / 3, 512 / 3)]) := by decide +kernel

end Verif
