import Verif.Lemmas.Outward
import Verif.Props.Convex
import Verif.Props.Shapes
/-
C118: the corners of faces run counter-clockwise, seen from outside.
-/

namespace Verif

/-- **C118 for the dodecahedron.** -/
theorem dodecahedron_outward_partial (verts : List V3) (faces : List (List Nat))
    (h : shapeMesh .dodecahedron = .ok (verts, faces)) : FacesOutward verts faces := by
  cases h
  intro i j k rest hf a b c ha hb hc
  have hk3 : 0 < (1 / Real.sqrt 3 / 2) ^ 3 := by
    have : 0 < Real.sqrt 3 := Real.sqrt_pos.mpr (by norm_num)
    positivity
  obtain ⟨r1, r2⟩ := golden_bounds
  have hg := golden_sq
  rw [dodecaVerts_gold] at ha hb hc ⊢
  generalize (1 + Real.sqrt 5) / 2 = r at *
  generalize (1 / Real.sqrt 3 / 2) = κ at *
  have hchk := List.all_eq_true.mp dodeca_check _ hf
  simp only [List.getElem?_map, Option.map_eq_some_iff] at ha hb hc
  obtain ⟨a', ha', rfl⟩ := ha
  obtain ⟨b', hb', rfl⟩ := hb
  obtain ⟨c', hc', rfl⟩ := hc
  simp only [goldFaceOk, ha', hb', hc', Bool.and_eq_true, List.all_eq_true, List.any_eq_true, decide_eq_true_eq]
    at hchk
  refine ⟨fun v hv => ?_, ?_⟩
  · obtain ⟨v', hv', rfl⟩ := List.mem_map.mp hv
    unfold NotOutside
    have := goldSide_eq hg κ a' b' c' v'
    change (((b'.at κ r).sub (a'.at κ r)).cross ((c'.at κ r).sub (a'.at κ r))).dot ((v'.at κ r).sub (a'.at κ r)) ≤ 0
    rw [this]
    have hp := hchk.1 v' hv'
    exact mul_nonpos_of_nonneg_of_nonpos hk3.le (gold_nonpos r1 r2 hp.1 hp.2)
  · obtain ⟨v', hv', hp⟩ := hchk.2
    refine ⟨v'.at κ r, List.mem_map_of_mem hv', ?_⟩
    rw [goldSide_eq hg]
    exact mul_neg_of_pos_of_neg hk3 (gold_neg r1 r2 hp.1 hp.2)

/-- **C118 fails for the octahedron**: all of its faces are turned inside out. -/
theorem octahedron_outward_fails (verts : List V3) (faces : List (List Nat))
    (h : shapeMesh .octahedron = .ok (verts, faces)) :
    ¬ FacesOutward verts faces ∧ FacesOutward verts (faces.map List.reverse) := by
  cases h
  unfold octaVerts
  have hr : 0 < 1 / 2 * 1 / Real.sqrt 2 := by
    have : 0 < Real.sqrt 2 := Real.sqrt_pos.mpr (by norm_num)
    positivity
  generalize 1 / 2 * 1 / Real.sqrt 2 = r at *
  have hrr := mul_pos hr hr
  constructor
  · intro hout
    have := (hout 2 3 0 [] (by decide) _ _ _ rfl rfl rfl).1 ⟨0, -(1 / 2), 0⟩ (by simp)
    simp [NotOutside, V3.sub, V3.cross, V3.dot] at this
    nlinarith
  · intro i j k rest hf a b c ha hb hc
    simp only [octaFaces, List.map_cons, List.map_nil, List.reverse_cons, List.reverse_nil, List.nil_append,
      List.cons_append, List.mem_cons, List.not_mem_nil, or_false, List.cons.injEq] at hf
    rcases hf with hf | hf | hf | hf | hf | hf | hf | hf
    all_goals
      obtain ⟨rfl, rfl, rfl, rfl⟩ := hf
      simp only [List.getElem?_cons_succ, List.getElem?_cons_zero, Option.some.injEq] at ha hb hc
      subst ha hb hc
      refine ⟨fun v hv => ?_, ?_⟩
      · simp only [List.mem_cons, List.not_mem_nil, or_false] at hv
        rcases hv with rfl | rfl | rfl | rfl | rfl | rfl
        all_goals
          simp [NotOutside, V3.sub, V3.cross, V3.dot]
          try nlinarith
      · first
          | refine ⟨⟨0, -(1 / 2), 0⟩, by simp, ?_⟩
            simp only [V3.sub, V3.cross, V3.dot]
            nlinarith
          | refine ⟨⟨0, 1 / 2, 0⟩, by simp, ?_⟩
            simp only [V3.sub, V3.cross, V3.dot]
            nlinarith

/-- What this leads to, whatever the events: `frontback` tells some of the faces of the octahedron to be front faces,
and the middle of each of these is hidden by a point inside the octahedron. -/
theorem octahedron_front_fails (theta phi zoom zdist scale xlim ylim : ℝ) (es : List CamEvent) (hs : 0 < scale)
    (hn : 1 ≤ zdist - scale * (1 / 2)) (hf : zdist + scale * (1 / 2) ≤ 100) (verts : List V3)
    (faces : List (List Nat)) (h : shapeMesh .octahedron = .ok (verts, faces)) :
    let c := camRun (camInit false theta phi zoom zdist scale xlim ylim) es
    let T := c.proj * c.view * c.model
    let told := fun G : Fin 3 → V3 => ∃ ps : Fin 3 → V3, (∀ i, screenOf T (G i) = some (ps i)) ∧
      faceFront (ps 0) (ps 1) (ps 2)
    (∃ G ∈ meshTris verts faces, told G) ∧ ∀ G ∈ meshTris verts faces, told G →
      ∃ u, InSolid (meshTris verts (faces.map List.reverse)) u ∧ Hides T (c.view * c.model) u (centreOf G) := by
  intro c T told
  have hrad := shapes_radius _ (Or.inl rfl) verts faces h
  have hball : ∀ G ∈ meshTris verts faces, ∀ i, (G i).x ^ 2 + (G i).y ^ 2 + (G i).z ^ 2 ≤ (1 / 2) ^ 2 := by
    intro G hG i
    have := hrad _ (meshTris_corner hG i)
    simp only [V3.dot] at this
    nlinarith
  cases h
  have hr : 0 < 1 / 2 * 1 / Real.sqrt 2 := by
    have : 0 < Real.sqrt 2 := Real.sqrt_pos.mpr (by norm_num)
    positivity
  obtain ⟨eye, he, hfront⟩ :=
    camera_front_faces_scene theta phi zoom zdist scale xlim ylim es (1 / 2) (by norm_num) hs hn hf
  change fromEye (c.view * c.model) eye = _ at he
  have htold : ∀ G ∈ meshTris octaVerts octaFaces, told G ↔ 0 < sideOf G eye := by
    intro G hG
    obtain ⟨ps, hps, hface⟩ := hfront G (hball G hG)
    constructor
    · rintro ⟨qs, hqs, hq⟩
      have : qs = ps := funext (fun i => Option.some.inj ((hqs i).symm.trans (hps i)))
      subst this
      exact hface.mp hq
    · intro h
      exact ⟨ps, hps, hface.mpr h⟩
  constructor
  · obtain ⟨G, hG, h⟩ := octa_some_front hr eye
    exact ⟨G, hG, (htold G hG).mpr h⟩
  · intro G hG hGt
    have hGe := (htold G hG).mp hGt
    have hcen : (centreOf G).x ^ 2 + (centreOf G).y ^ 2 + (centreOf G).z ^ 2 ≤ (1 / 2) ^ 2 := by
      have h0 := hball G hG 0
      have h1 := hball G hG 1
      have h2 := hball G hG 2
      simp only [centreOf]
      nlinarith [sq_nonneg ((G 0).x - (G 1).x), sq_nonneg ((G 1).x - (G 2).x), sq_nonneg ((G 2).x - (G 0).x),
        sq_nonneg ((G 0).y - (G 1).y), sq_nonneg ((G 1).y - (G 2).y), sq_nonneg ((G 2).y - (G 0).y),
        sq_nonneg ((G 0).z - (G 1).z), sq_nonneg ((G 1).z - (G 2).z), sq_nonneg ((G 2).z - (G 0).z)]
    obtain ⟨kp, kA, kz, -⟩ :=
      camera_between theta phi zoom zdist scale xlim ylim es (1 / 2) (by norm_num) hs.le hn hf _ hcen
    have hz : (fromEye (c.view * c.model) (centreOf G)).z < 0 := by
      change 1 ≤ -(fromEye (c.view * c.model) (centreOf G)).z at kz
      linarith
    have hT : T = glmPerspective 35 1 1 100 * (c.view * c.model) := by
      rw [← kp]
      exact Matrix.mul_assoc _ _ _
    obtain ⟨r, hr0, hr1, hin⟩ := step_towards (octaList (1 / 2 * 1 / Real.sqrt 2)) (fun H => -sideOf H eye)
      (fun H => -sideOf H (centreOf G)) (by
        intro H hH
        rcases octa_centre hr G hG H hH with rfl | hlt
        · right
          exact ⟨by simp only [side_centre, neg_zero], by linarith⟩
        · left
          linarith)
    refine ⟨onWay eye (centreOf G) r, ?_, ?_⟩
    · intro K hK
      rw [octa_reverse] at hK
      obtain ⟨H, hH, rfl⟩ := List.mem_map.mp hK
      change sideOf ![H 2, H 1, H 0] _ ≤ 0
      rw [side_reverse]
      have h1 := hin H hH
      have h2 := onWay_side (((H 1).sub (H 0)).cross ((H 2).sub (H 0))) (H 0) eye (centreOf G) r
      change sideOf H _ = r * sideOf H _ + (1 - r) * sideOf H _ at h2
      rw [h2]
      linarith
    · rw [hT]
      exact hides_onWay kA he hr0 hr1 hz

/-- **C118 fails for the cube and for the tetrahedron**: some of the faces are turned inside out, others are not. -/
theorem mixed_outward_fails (s : Shape) (hs : s = .cube ∨ s = .tetrahedron) (verts : List V3) (faces : List (List Nat))
    (h : shapeMesh s = .ok (verts, faces)) :
    ¬ FacesOutward verts faces ∧ ¬ FacesOutward verts (faces.map List.reverse) := by
  rcases hs with rfl | rfl
  · cases h
    have hs : 0 < Real.sqrt 2 := Real.sqrt_pos.mpr (by norm_num)
    have h3 : 0 < (1 / Real.sqrt 2) ^ 3 := by positivity
    constructor
    · intro hout
      have := (hout 4 5 6 [7] (by decide) _ _ _ rfl rfl rfl).1 ⟨(0 - 1 / 2) / Real.sqrt 2, (0 - 1 / 2) / Real.sqrt 2,
        (0 - 1 / 2) / Real.sqrt 2⟩ (by simp [cubeVerts])
      change (V3.dot _ _ : ℝ) ≤ 0 at this
      simp only [V3.sub, V3.cross, V3.dot, Matrix.cons_val_zero, Matrix.cons_val_one, Matrix.cons_val] at this
      ring_nf at this h3
      linarith
    · intro hout
      have := (hout 3 2 1 [0] (by decide) _ _ _ rfl rfl rfl).1 ⟨(0 - 1 / 2) / Real.sqrt 2, (1 - 1 / 2) / Real.sqrt 2,
        (0 - 1 / 2) / Real.sqrt 2⟩ (by simp [cubeVerts])
      change (V3.dot _ _ : ℝ) ≤ 0 at this
      simp only [V3.sub, V3.cross, V3.dot, Matrix.cons_val_zero, Matrix.cons_val_one, Matrix.cons_val] at this
      ring_nf at this h3
      linarith
  · cases h
    have c1 : Real.cos (2 * Real.pi / 3) = -(1 / 2) := by
      rw [show 2 * Real.pi / 3 = Real.pi - Real.pi / 3 by ring, Real.cos_pi_sub, Real.cos_pi_div_three]
    have s1 : Real.sin (2 * Real.pi / 3) = Real.sqrt 3 / 2 := by
      rw [show 2 * Real.pi / 3 = Real.pi - Real.pi / 3 by ring, Real.sin_pi_sub, Real.sin_pi_div_three]
    have c2 : Real.cos (2 * (2 * Real.pi / 3)) = -(1 / 2) := by
      rw [Real.cos_two_mul, c1]; norm_num
    have s2 : Real.sin (2 * (2 * Real.pi / 3)) = -(Real.sqrt 3 / 2) := by
      rw [Real.sin_two_mul, c1, s1]; ring
    have hs : 0 < Real.sqrt 3 := Real.sqrt_pos.mpr (by norm_num)
    constructor
    · intro hout
      have := (hout 1 2 0 [] (by decide) _ _ _ rfl rfl rfl).1 _ (List.getElem_mem (l := tetraVerts) (n := 3) (by decide))
      change (V3.dot _ _ : ℝ) ≤ 0 at this
      simp only [tetraVerts, List.getElem_cons_succ, List.getElem_cons_zero, V3.sub, V3.cross, V3.dot,
        Matrix.cons_val_zero, Matrix.cons_val_one, Matrix.cons_val, zero_mul, one_mul, c1, s1, c2, s2, Real.cos_zero,
        Real.sin_zero] at this
      nlinarith
    · intro hout
      have := (hout 3 2 1 [] (by decide) _ _ _ rfl rfl rfl).1 _ (List.getElem_mem (l := tetraVerts) (n := 0) (by decide))
      change (V3.dot _ _ : ℝ) ≤ 0 at this
      simp only [tetraVerts, List.getElem_cons_zero, V3.sub, V3.cross, V3.dot,
        Matrix.cons_val_zero, Matrix.cons_val_one, Matrix.cons_val, zero_mul, one_mul, c1, s1, c2, s2, Real.cos_zero,
        Real.sin_zero] at this
      nlinarith

/-- Whatever the events, no part of the dodecahedron hides a part of a face that `frontback` tells as a front face. -/
theorem camera_dodecahedron (theta phi zoom zdist scale xlim ylim : ℝ) (es : List CamEvent) (hs : 0 < scale)
    (hn : 1 ≤ zdist - scale * (1 / 2)) (hf : zdist + scale * (1 / 2) ≤ 100) (verts : List V3)
    (faces : List (List Nat)) (h : shapeMesh .dodecahedron = .ok (verts, faces)) :
    let c := camRun (camInit false theta phi zoom zdist scale xlim ylim) es
    let T := c.proj * c.view * c.model
    ∀ F ∈ meshTris verts faces, ∀ G ∈ meshTris verts faces, ∃ ps : Fin 3 → V3,
      (∀ i, screenOf T (G i) = some (ps i)) ∧ (faceFront (ps 0) (ps 1) (ps 2) →
        ∀ u v, InTriangle F u → InTriangle G v → ¬ Hides T (c.view * c.model) u v) := by
  refine camera_convex_mesh theta phi zoom zdist scale xlim ylim es (1 / 2) (by norm_num) hs hn hf _ (fun F hF i => ?_)
    (convex_of_outward (dodecahedron_outward_partial verts faces h))
  have := shapes_radius _ (Or.inr rfl) verts faces h _ (meshTris_corner hF i)
  simp only [V3.dot] at this
  nlinarith

/-- The default camera has the polyhedra between its planes. -/
example : (0 : ℝ) < 1 ∧ (1 : ℝ) ≤ 5 - 1 * (1 / 2) ∧ (5 : ℝ) + 1 * (1 / 2) ≤ 100 := by norm_num

/-- All 36 faces of the dodecahedron are such triangles. -/
example : (meshTris dodecaVerts dodecaFaces).length = 36 := rfl

end Verif
