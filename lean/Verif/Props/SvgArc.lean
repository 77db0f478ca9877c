import Verif.Lemmas.SvgArc
import Verif.Props.Svg
/-
Properties of elliptical arcs (C57), and of paths with arcs (C46, C47).
-/

namespace Verif

open Real

/-- The direction of an ellipse is what its name says. -/
theorem ellipse_dir_deriv (e : Ellipse) (t : ℝ) :
    HasDerivAt (fun s => (e.pt s).1) (e.dir t).1 t ∧
      HasDerivAt (fun s => (e.pt s).2) (e.dir t).2 t := by
  have hc := (hasDerivAt_cos t).const_mul e.rx
  have hs := (hasDerivAt_sin t).const_mul e.ry
  constructor
  · exact (((hc.const_mul (cos (toRad e.rotation))).const_add e.center.1).sub
      (hs.const_mul (sin (toRad e.rotation))))
  · exact (((hc.const_mul (sin (toRad e.rotation))).const_add e.center.2).add
      (hs.const_mul (cos (toRad e.rotation))))

theorem sin_nonpos_ge_pi {x : ℝ} (h0 : 0 < x) (h : sin x ≤ 0) : π ≤ x := by
  by_contra hx
  exact absurd (sin_pos_of_pos_of_lt_pi h0 (not_le.1 hx)) (not_lt.2 h)

theorem sin_nonneg_le_pi {x : ℝ} (h1 : x < 2 * π) (h : 0 ≤ sin x) : x ≤ π := by
  by_contra hx
  have := sin_neg_of_neg_of_neg_pi_lt (x := x - 2 * π) (by linarith) (by linarith)
  rw [sin_sub_two_pi] at this
  linarith

/-- C57: the arc between two distinct points, for any radii other than zero, any rotation and any
flags: no exception; its vertices are those of a chain of cubic curves along one ellipse, that has
the rotation and the radii given, both enlarged by the least factor for which an ellipse goes
through the two points; it starts at the first point and ends at the second; it turns as the sweep
flag says, by less than a full turn, in steps of at most a quarter; and it is the long one or the
short one as the large flag says. -/
theorem arc_joins (p r q : Pt ℝ) (rot large sweep : ℝ) (hpq : p ≠ q) (h1 : r.1 ≠ 0) (h2 : r.2 ≠ 0)
    (hs : sweep = 0 ∨ sweep = 1) :
    ∃ (c : Pt ℝ) (k t d a : ℝ) (n : Nat) (e : Ellipse),
      e = ⟨c, rot, k * |r.1|, k * |r.2|⟩ ∧ 1 ≤ k ∧
      (∀ k' c', 1 ≤ k' → Ellipse.through ⟨c', rot, k' * |r.1|, k' * |r.2|⟩ p →
        Ellipse.through ⟨c', rot, k' * |r.1|, k' * |r.2|⟩ q → k ≤ k') ∧
      arcPath p r rot large sweep q = .ok (e.chain n t d a) ∧
      1 ≤ n ∧ |d| / n ≤ π / 2 ∧ 0 < a * d ∧ e.pt t = p ∧ e.pt (t + d) = q ∧
      (sweep = 1 → 0 < d ∧ d < 2 * π) ∧ (sweep = 0 → -(2 * π) < d ∧ d < 0) ∧
      (large = 1 → π ≤ |d|) ∧ (large = 0 → |d| ≤ π) := by
  obtain ⟨k, c, th, d, he, hk, hmin, hp, hq, hd1, hd2, hs1, hs2⟩ :=
    endpointToCenter_spec rot large sweep hpq h1 h2
  rw [toRad_add] at hq
  have hpi := pi_pos
  rcases hs with rfl | rfl
  · obtain ⟨g0, g1⟩ := hd2 rfl
    obtain ⟨n, a, hn, ha, hle, hv⟩ := arc_backward (k * |r.1|, k * |r.2|) c rot th d g0 g1
    have hD : toRad d < 0 := by
      unfold toRad
      have := mul_pos (neg_pos.2 g1) hpi
      linarith
    have hD' : -(2 * π) < toRad d := by
      unfold toRad
      have := mul_pos (show 0 < d + 360 by linarith) hpi
      linarith
    refine ⟨c, k, toRad th, toRad d, a, n, _, rfl, hk, hmin, ?_, hn, ?_, mul_pos_of_neg_of_neg ha hD,
      hp, hq, fun h => absurd h (by norm_num), fun _ => ⟨hD', hD⟩, ?_, ?_⟩
    · simp only [arcPath, he, bind, Except.bind, pure, Except.pure]
      rw [if_neg (by linarith), if_neg (by linarith), hv]
    · rw [abs_of_neg hD, neg_div]; exact hle
    · intro h
      subst h
      have := hs2 (by norm_num)
      rw [abs_of_neg hD]
      apply sin_nonpos_ge_pi (by linarith)
      rw [sin_neg]; linarith
    · intro h
      subst h
      have := hs1 rfl
      rw [abs_of_neg hD]
      apply sin_nonneg_le_pi (by linarith)
      rw [sin_neg]; linarith
  · obtain ⟨g0, g1⟩ := hd1 one_ne_zero
    obtain ⟨n, a, hn, ha, hle, hv⟩ := arc_forward (k * |r.1|, k * |r.2|) c rot th d g0 g1
    have hD : 0 < toRad d := by
      unfold toRad
      have := mul_pos g0 hpi
      linarith
    have hD' : toRad d < 2 * π := by
      unfold toRad
      have := mul_pos (show 0 < 360 - d by linarith) hpi
      linarith
    refine ⟨c, k, toRad th, toRad d, a, n, _, rfl, hk, hmin, ?_, hn, ?_, mul_pos ha hD,
      hp, hq, fun _ => ⟨hD, hD'⟩, fun h => absurd h (by norm_num), ?_, ?_⟩
    · simp only [arcPath, he, bind, Except.bind, pure, Except.pure]
      rw [if_pos (by linarith), if_pos (by linarith), hv]
    · rw [abs_of_pos hD]; exact hle
    · intro h
      subst h
      rw [abs_of_pos hD]
      exact sin_nonpos_ge_pi hD (hs1 rfl)
    · intro h
      subst h
      rw [abs_of_pos hD]
      exact sin_nonneg_le_pi hD' (hs2 (by norm_num))

example := arc_joins (0, 0) (2, 1) (1, 1) 30 1 0 (by norm_num) (by norm_num) (by norm_num)
  (Or.inl rfl)

/-- C57: in particular the first vertex is the first point and the last vertex the second. -/
theorem arc_ends (p r q : Pt ℝ) (rot large sweep : ℝ) (hpq : p ≠ q) (h1 : r.1 ≠ 0) (h2 : r.2 ≠ 0)
    (hs : sweep = 0 ∨ sweep = 1) :
    ∃ v, arcPath p r rot large sweep q = .ok v ∧ v.head? = some p ∧ v.getLast? = some q := by
  obtain ⟨c, k, t, d, a, n, e, -, -, -, hv, hn, -, -, hp, hq, -⟩ :=
    arc_joins p r q rot large sweep hpq h1 h2 hs
  refine ⟨_, hv, by simp [Ellipse.chain, hp], ?_⟩
  obtain ⟨m, rfl⟩ : ∃ m, n = m + 1 := ⟨n - 1, by omega⟩
  rw [ellipse_chain, chain_succ, List.getLast?_append]
  simp only [List.getLast?_cons_cons, List.getLast?_singleton, Option.some_or, Option.some.injEq]
  rw [← hq]
  congr 2
  have : ((m + 1 : Nat) : ℝ) ≠ 0 := by positivity
  field_simp

/-- C57: without the guards of the parser there is an exception: for equal points, and for a radius
of zero. -/
theorem arc_degenerate (p r q : Pt ℝ) (rot large sweep : ℝ) (h : p = q ∨ r.1 = 0 ∨ r.2 = 0) :
    arcPath p r rot large sweep q = .error .zeroDivision := by
  by_cases hr : r.1 = 0 ∨ r.2 = 0
  · have h0 : |r.1| * |r.1| = 0 ∨ |r.2| * |r.2| = 0 := by
      rcases hr with h | h <;> simp [h]
    simp only [arcPath, endpointToCenter, arcRadius, if_pos h0, bind, Except.bind]
  · have hpq : p = q := by
      rcases h with h | h
      · exact h
      · exact absurd h hr
    subst hpq
    obtain ⟨k, -, hk, -, -⟩ := arcRadius_spec (p := arcPrim p rot p) (fun h => hr (Or.inl h))
      (fun h => hr (Or.inr h))
    have h0 : arcPrim p rot p = (0, 0) := by simp [arcPrim]
    rw [h0] at hk
    simp only [arcPath, endpointToCenter, h0, hk, bind, Except.bind, arcCprim, mul_zero, add_zero,
      if_true]

/-- The points of arcs as drawn. -/
noncomputable def arcPoints : ArcPts ℝ := fun p r rot l s q =>
  match arcPath p r rot l s q with
  | .ok v => v
  | .error _ => []

/-- C46: the real arcs meet what the theorems on paths ask. -/
theorem arcPath_draws : ArcDraws arcPath arcPoints := by
  intro p r rot l s q hpq h1 h2
  obtain ⟨k, c, th, d, he, -⟩ := endpointToCenter_spec rot l s hpq h1 h2
  simp only [arcPoints, arcPath, he, bind, Except.bind, pure, Except.pure]

theorem unitArc_length (t1 t2 : ℝ) : ∃ n, (unitArc t1 t2).length = 3 * n + 1 :=
  by unfold unitArc; exact ⟨_, chain_length _ _ _ _⟩

/-- C46: the real arcs are chains of cubic curves. -/
theorem arcPath_shape : ArcShape arcPath := by
  intro p r rot l s q
  by_cases h : p = q ∨ r.1 = 0 ∨ r.2 = 0
  · rw [arc_degenerate p r q rot l s h]
    simp
  · obtain ⟨k, c, th, d, he, -⟩ := endpointToCenter_spec rot l s (fun e => h (Or.inl e))
      (fun e => h (Or.inr (Or.inl e))) (fun e => h (Or.inr (Or.inr e)))
    simp only [arcPath, he, bind, Except.bind, pure, Except.pure, Except.ok.injEq, ne_eq,
      reduceCtorEq, not_false_eq_true, and_true]
    rintro v rfl
    obtain ⟨n1, hn1⟩ := unitArc_length th (th + d)
    obtain ⟨n2, hn2⟩ := unitArc_length (th + d) th
    split
    · exact ⟨n1, by simpa using hn1⟩
    · exact ⟨n2, by simpa using hn2⟩

/-- C46: a path with arcs, its subpaths begun by moves, is read without any exception, well formed,
and as it is meant. -/
theorem svg_path_with_arcs (pos : Pt ℝ) (is : List (Item ℝ)) (ts : List (SvgTok ℝ))
    (hm : Moved false is) (hw : WrittenAs none is ts) :
    parsePath arcPath pos ts = .ok (Pen.drawAll arcPoints ⟨pos, pos, none, none⟩ is) ∧
      ∀ g ∈ Pen.drawAll arcPoints ⟨pos, pos, none, none⟩ is, SegOk g := by
  have h := svg_parse_draws arcPath arcPoints arcPath_draws pos is ts hm hw
  exact ⟨h, (svg_wellformed arcPath arcPath_shape pos ts _ h).1⟩

example : Moved false ([.moveTo true (0, 0), .arcTo true (2, 1) 30 0 1 (3, 1), .close] :
    List (Item ℝ)) := by simp [Moved]

end Verif
