import Verif.Lemmas.Shapes
/-
C44, C45, C58: meshes and triangles.
-/

namespace Verif

/-! ### C44: sphere meshes are well formed -/

/-- The numbers of vertices and faces. -/
theorem sphere_counts (r : ℝ) (sl st : Nat) :
    (sphereVerts r sl st).length = (sl + 1) * (st + 1) ∧
      (sphereFaces sl st).length = 2 * sl * st := by
  refine ⟨sphereVerts_length r sl st, ?_⟩
  rw [sphereFaces_eq]
  simp [List.length_flatMap, cellFaces, Nat.mul_comm, Nat.mul_left_comm]

/-- Every index of a face is one of a vertex. -/
theorem sphere_indices (r : ℝ) (sl st : Nat) :
    ∀ f ∈ sphereFaces sl st,
      f.1 < (sphereVerts r sl st).length ∧ f.2.1 < (sphereVerts r sl st).length ∧
        f.2.2 < (sphereVerts r sl st).length := by
  intro f hf
  obtain ⟨i, hi, j, hj, h⟩ := mem_sphereFaces.1 hf
  obtain ⟨h1, h2, h3, h4⟩ := cell_points r hi hj
  have l1 := (List.getElem?_eq_some_iff.1 h1).1
  have l2 := (List.getElem?_eq_some_iff.1 h2).1
  have l3 := (List.getElem?_eq_some_iff.1 h3).1
  have l4 := (List.getElem?_eq_some_iff.1 h4).1
  simp only [cellFaces, List.mem_cons, List.not_mem_nil, or_false] at h
  rcases h with rfl | rfl
  · exact ⟨l1, l2, l4⟩
  · exact ⟨l4, l3, l1⟩

/-- Every vertex is used by a face, if there are slices and stacks. -/
theorem sphere_used (r : ℝ) {sl st : Nat} (hs : 0 < sl) (ht : 0 < st) :
    ∀ k < (sphereVerts r sl st).length,
      ∃ f ∈ sphereFaces sl st, k = f.1 ∨ k = f.2.1 ∨ k = f.2.2 := by
  intro k hk
  rw [sphereVerts_length] at hk
  have hj : k % (sl + 1) < sl + 1 := Nat.mod_lt _ (by omega)
  have hi : k / (sl + 1) < st + 1 := Nat.div_lt_of_lt_mul (by linarith)
  have hk' : k / (sl + 1) * (sl + 1) + k % (sl + 1) = k := Nat.div_add_mod' k (sl + 1)
  generalize k / (sl + 1) = i at hi hk'
  generalize k % (sl + 1) = j at hj hk'
  subst hk'
  simp only [mem_sphereFaces]
  by_cases h1 : i < st
  · by_cases h2 : j < sl
    · exact ⟨_, ⟨i, h1, j, h2, by simp [cellFaces]; exact Or.inl rfl⟩, Or.inl rfl⟩
    · have : j = (j - 1) + 1 := by omega
      exact ⟨_, ⟨i, h1, j - 1, by omega, by simp [cellFaces]; exact Or.inl rfl⟩,
        Or.inr (Or.inl (by simp only; omega))⟩
  · have hi' : i = (i - 1) + 1 := by omega
    have e : i * (sl + 1) = (i - 1) * (sl + 1) + (sl + 1) := by
      conv_lhs => rw [hi']
      ring
    by_cases h2 : j < sl
    · exact ⟨_, ⟨i - 1, by omega, j, h2, by simp [cellFaces]; exact Or.inr rfl⟩,
        Or.inr (Or.inl (by simp only; omega))⟩
    · exact ⟨_, ⟨i - 1, by omega, j - 1, by omega, by simp [cellFaces]; exact Or.inr rfl⟩,
        Or.inl (by simp only; omega)⟩

/-- Every vertex is at distance `|radius|` from the centre. -/
theorem sphere_radius (r : ℝ) (sl st : Nat) :
    ∀ v ∈ sphereVerts r sl st, v.norm = |r| := by
  intro v hv
  obtain ⟨k, hk⟩ := List.getElem?_of_mem hv
  have hlen := (List.getElem?_eq_some_iff.1 hk).1
  rw [sphereVerts_length] at hlen
  have hj : k % (sl + 1) < sl + 1 := Nat.mod_lt _ (by omega)
  have hi : k / (sl + 1) < st + 1 := Nat.div_lt_of_lt_mul (by linarith)
  have hk' : k / (sl + 1) * (sl + 1) + k % (sl + 1) = k := Nat.div_add_mod' k (sl + 1)
  rw [← hk', sphereVerts_get r (by omega) (by omega)] at hk
  cases hk
  rw [V3.norm, ballAt_norm, Real.sqrt_sq_eq_abs]

/-- The mesh reaches all round: from one pole to the other, and the last column is the first. -/
theorem sphere_poles (r : ℝ) {sl st : Nat} (ht : 0 < st) (j : Nat) (hj : j ≤ sl) :
    (sphereVerts r sl st)[j]? = some ⟨0, 0, r⟩ ∧
      (sphereVerts r sl st)[st * (sl + 1) + j]? = some ⟨0, 0, -r⟩ := by
  constructor
  · have := sphereVerts_get r (i := 0) (st := st) (by omega) hj
    rw [Nat.zero_mul, Nat.zero_add] at this
    rw [this]; simp [ballAt, rowAngle_zero]
  · rw [sphereVerts_get r (le_refl st) hj]; simp [ballAt, rowAngle_last ht]

example : (sphereFaces 2 1) = [(0, 1, 4), (4, 3, 0), (1, 2, 5), (5, 4, 1)] := by decide

example : (sphereVerts 2 4 2).length = 15 ∧ (sphereFaces 4 2).length = 16 :=
  sphere_counts 2 4 2

/-! ### C58: meshes are closed surfaces -/

/-- The sphere is a closed surface: every side is shared by faces that turn the same way. -/
theorem sphere_closed (r : ℝ) (sl st : Nat) :
    ClosedSurface ((sphereFaces sl st).map (facePoints (sphereVerts r sl st))) := by
  rcases Nat.eq_zero_or_pos sl with hs | hs
  · have h0 : sphereFaces 0 st = [] := by rw [sphereFaces_eq]; simp only [List.range_zero,
      List.flatMap_nil, List.flatMap_eq_nil_iff, implies_true]
    subst hs; intro p q; rw [h0]; rfl
  rcases Nat.eq_zero_or_pos st with ht | ht
  · subst ht; simp [sphereFaces_eq, ClosedSurface]
  refine closedSurface_of_sum _ (fun f hf => ?_)
  let P : Nat → Nat → Option V3 := fun i j => some (ballAt r (rowAngle st i) (colAngle sl j))
  have key := telescope f hf P sl st
    (fun i => by simp only [P]; rw [colAngle_last hs, ballAt_seam]; simp [colAngle])
    (fun j => by simp only [P, rowAngle_zero]; rw [ballAt_pole])
    (fun j => by simp only [P, rowAngle_last ht]; rw [ballAt_pole'])
  have hsum := sum_sides f (fun i j => (cellFaces sl i j).map (facePoints (sphereVerts r sl st)))
    sl st
  have hmap : (sphereFaces sl st).map (facePoints (sphereVerts r sl st)) =
      (List.range st).flatMap (fun i => (List.range sl).flatMap (fun j =>
        (cellFaces sl i j).map (facePoints (sphereVerts r sl st)))) := by
    rw [sphereFaces_eq]; simp [List.map_flatMap]
  have hcells : (∑ i ∈ Finset.range st, ∑ j ∈ Finset.range sl,
      ((((cellFaces sl i j).map (facePoints (sphereVerts r sl st))).flatMap sides).map
        (fun s => f s.1 s.2)).sum) = 0 := by
    rw [← key]
    refine Finset.sum_congr rfl (fun i hi => Finset.sum_congr rfl (fun j hj => ?_))
    obtain ⟨h1, h2, h3, h4⟩ := cell_points r (Finset.mem_range.1 hi) (Finset.mem_range.1 hj)
    simp only [cellFaces, facePoints, List.map_cons, List.map_nil, List.flatMap_cons,
      List.flatMap_nil, sides, h1, h2, h3, h4, P]
    simp only [List.cons_append, List.nil_append, List.map_cons, List.map_nil,
      List.sum_cons, List.sum_nil]
    ring
  rw [hcells] at hsum
  rw [hmap]; exact hsum

/-- All faces of the sphere turn counterclockwise seen from outside; the only ones without volume
are those at the poles, of which two corners are the same point. -/
theorem sphere_outward {r : ℝ} (hr : 0 < r) {sl st : Nat} (hs : 3 ≤ sl) :
    ∀ f ∈ sphereFaces sl st, ∃ a b c, facePoints (sphereVerts r sl st) f = (some a, some b, some c) ∧
      (0 < volume a b c ∨ a = b) := by
  intro f hf
  obtain ⟨i, hi, j, hj, h⟩ := mem_sphereFaces.1 hf
  obtain ⟨h1, h2, h3, h4⟩ := cell_points r hi hj
  have hp := sin_two_pi_div_pos hs
  simp only [cellFaces, List.mem_cons, List.not_mem_nil, or_false] at h
  rcases h with rfl | rfl
  · refine ⟨_, _, _, by simp only [facePoints, h1, h2, h4]; rfl, ?_⟩
    rw [volume_first, colAngle_succ_sub, rowAngle_succ_sub]
    rcases Nat.eq_zero_or_pos i with h0 | h0
    · right; subst h0; simp only [rowAngle_zero]; exact ballAt_pole r _ _
    · left
      have := sin_rowAngle_pos hi h0
      have := sin_pi_div_pos (st := st) (by omega)
      positivity
  · refine ⟨_, _, _, by simp only [facePoints, h4, h3, h1]; rfl, ?_⟩
    rw [volume_second, colAngle_succ_sub, rowAngle_succ_sub]
    rcases Nat.lt_or_ge (i + 1) st with h0 | h0
    · left
      have := sin_rowAngle_pos h0 (by omega : 0 < i + 1)
      have := sin_pi_div_pos (st := st) (by omega)
      positivity
    · right
      have : i + 1 = st := by omega
      rw [this, rowAngle_last (by omega)]; exact ballAt_pole' r _ _

example : ∃ f ∈ sphereFaces 3 2, f = (0, 1, 5) ∧
    ∃ a b c, facePoints (sphereVerts 1 3 2) f = (some a, some b, some c) ∧
      (0 < volume a b c ∨ a = b) :=
  ⟨(0, 1, 5), by decide, rfl, sphere_outward one_pos (by decide) _ (by decide)⟩

/-- The other polyhedra are closed: every side belongs to two faces, every index is one of a
vertex, and the numbers of vertices, sides and faces satisfy Euler's formula. -/
theorem shapes_closed (s : Shape) (verts : List V3) (faces : List (List Nat))
    (h : shapeMesh s = .ok (verts, faces)) :
    TwoFacesPerSide faces ∧ (∀ f ∈ faces, ∀ k ∈ f, k < verts.length) ∧
      verts.length + faces.length = (faces.flatMap polySides).length / 2 + 2 := by
  cases s <;> simp only [shapeMesh, Except.ok.injEq, Prod.mk.injEq, reduceCtorEq] at h <;>
    obtain ⟨rfl, rfl⟩ := h
  · refine ⟨by decide +kernel, ?_, ?_⟩ <;> simp only [cubeVerts, List.length_map, List.length_cons, List.length_nil] <;> decide +kernel
  · refine ⟨by decide +kernel, ?_, ?_⟩ <;> simp only [tetraVerts, List.length_cons, List.length_nil] <;> decide +kernel
  · refine ⟨by decide +kernel, ?_, ?_⟩ <;> simp only [octaVerts, List.length_cons, List.length_nil] <;> decide +kernel
  · refine ⟨by decide +kernel, ?_, ?_⟩ <;> simp only [dodecaVerts, List.length_map, List.length_cons, List.length_nil] <;> decide +kernel

/-- The property does not hold of the icosahedron: there is no mesh. -/
theorem icosahedron_fails : shapeMesh .icosahedron = .error .nameError := rfl

/-- Its list of faces would be right. -/
example : TwoFacesPerSide icosaFaces ∧ ∀ f ∈ icosaFaces, ∀ k ∈ f, k < 12 := by decide +kernel

/-- The vertices of the octahedron and of the dodecahedron are on the sphere of diameter 1. -/
theorem shapes_radius (s : Shape) (hs : s = .octahedron ∨ s = .dodecahedron) (verts : List V3)
    (faces : List (List Nat)) (h : shapeMesh s = .ok (verts, faces)) :
    ∀ v ∈ verts, v.dot v = 1 / 4 := by
  have h2 : Real.sqrt 2 ^ 2 = 2 := Real.sq_sqrt (by norm_num)
  have h3 : Real.sqrt 3 ^ 2 = 3 := Real.sq_sqrt (by norm_num)
  have h5 : Real.sqrt 5 ^ 2 = 5 := Real.sq_sqrt (by norm_num)
  have p2 : Real.sqrt 2 ≠ 0 := by positivity
  have p3 : Real.sqrt 3 ≠ 0 := by positivity
  have p5 : 1 + Real.sqrt 5 ≠ 0 := by positivity
  rcases hs with rfl | rfl <;> simp only [shapeMesh, Except.ok.injEq, Prod.mk.injEq] at h <;>
    obtain ⟨rfl, rfl⟩ := h
  · simp only [octaVerts, List.mem_cons, List.not_mem_nil, or_false]
    rintro v (rfl | rfl | rfl | rfl | rfl | rfl) <;> simp only [V3.dot] <;> field_simp <;>
      nlinarith
  · generalize hr : (1 + Real.sqrt 5) / 2 = r
    have hr1 : r ^ 2 = r + 1 := by rw [← hr]; nlinarith
    have hr0 : r ≠ 0 := by rw [← hr]; positivity
    have hr4 : r ^ 4 = 3 * r ^ 2 - 1 := by
      have : r ^ 4 = (r + 1) ^ 2 := by rw [← hr1]; ring
      rw [this]; linarith [hr1, show (r + 1) ^ 2 = r ^ 2 + 2 * r + 1 by ring]
    simp only [dodecaVerts, hr, List.map_cons, List.map_nil, List.mem_cons, List.not_mem_nil,
      or_false]
    rintro v (rfl | rfl | rfl | rfl | rfl | rfl | rfl | rfl | rfl | rfl | rfl | rfl | rfl | rfl |
      rfl | rfl | rfl | rfl | rfl | rfl) <;> simp only [V3.dot] <;> field_simp <;>
      simp only [h3] <;> nlinarith

/-- The tetrahedron is not regular: its vertices are at different distances from the centre. -/
theorem tetrahedron_radius_fails : ∃ v ∈ tetraVerts, ∃ w ∈ tetraVerts, v.dot v ≠ w.dot w := by
  refine ⟨⟨0, 1 / 2, 0⟩, by simp [tetraVerts],
    ⟨1 / 2 * Real.cos (0 * (2 * Real.pi / 3)), -(1 / 4), 1 / 2 * Real.sin (0 * (2 * Real.pi / 3))⟩,
    by simp [tetraVerts], ?_⟩
  simp [V3.dot]
  try norm_num

/-- What is left of C58 for the tetrahedron: it is a pyramid with its tip on the sphere of
diameter 1. The other three corners are as far from the centre as each other, form an
equilateral triangle and are equally far from the tip. -/
theorem tetrahedron_radius_partial (verts : List V3) (faces : List (List Nat))
    (h : shapeMesh .tetrahedron = .ok (verts, faces)) :
    ∃ tip b0 b1 b2, verts = [tip, b0, b1, b2] ∧ tip.dot tip = 1 / 4 ∧
      (∀ b ∈ [b0, b1, b2], b.dot b = 5 / 16 ∧ b.dot tip = -(1 / 8)) ∧
      b0.dot b1 = -(1 / 16) ∧ b1.dot b2 = -(1 / 16) ∧ b2.dot b0 = -(1 / 16) := by
  simp only [shapeMesh, Except.ok.injEq, Prod.mk.injEq] at h
  obtain ⟨rfl, rfl⟩ := h
  have c1 : Real.cos (2 * Real.pi / 3) = -(1 / 2) := by
    rw [show 2 * Real.pi / 3 = Real.pi - Real.pi / 3 by ring, Real.cos_pi_sub, Real.cos_pi_div_three]
  have s1 : Real.sin (2 * Real.pi / 3) = Real.sqrt 3 / 2 := by
    rw [show 2 * Real.pi / 3 = Real.pi - Real.pi / 3 by ring, Real.sin_pi_sub, Real.sin_pi_div_three]
  have c2 : Real.cos (2 * (2 * Real.pi / 3)) = -(1 / 2) := by
    rw [Real.cos_two_mul, c1]; norm_num
  have s2 : Real.sin (2 * (2 * Real.pi / 3)) = -(Real.sqrt 3 / 2) := by
    rw [Real.sin_two_mul, c1, s1]; ring
  have h3 : Real.sqrt 3 * Real.sqrt 3 = 3 := Real.mul_self_sqrt (by norm_num)
  refine ⟨_, _, _, _, rfl, ?_, ?_, ?_, ?_, ?_⟩
  · simp only [V3.dot]; norm_num
  · simp only [List.mem_cons, List.not_mem_nil, or_false, zero_mul, one_mul, c1, s1, c2, s2,
      Real.cos_zero, Real.sin_zero]
    rintro b (rfl | rfl | rfl) <;> simp only [V3.dot] <;> constructor <;> nlinarith
  all_goals
    simp only [V3.dot, zero_mul, one_mul, c1, s1, c2, s2, Real.cos_zero, Real.sin_zero]
    nlinarith

/-! ### C45: front and back faces -/

/-- Each triangle is classified as exactly one of front and back: front exactly when its corners
turn counterclockwise. -/
theorem frontback_spec (ts : List Tri) (k : Nat) (t : Tri) (h : ts[k]? = some t) :
    (frontback ts).1.length = ts.length ∧ (frontback ts).2.length = ts.length ∧
      (frontback ts).1[k]? = some (decide (0 < area2 t.a t.b t.c)) ∧
      (frontback ts).2[k]? = some (!decide (0 < area2 t.a t.b t.c)) := by
  have e : triZ t = -area2 t.a t.b t.c := by simp only [triZ, area2]; ring
  refine ⟨by simp [frontback], by simp [frontback], ?_, ?_⟩
  · simp only [frontback, List.getElem?_map, h, Option.map_some, e, Left.neg_neg_iff]
  · simp only [frontback, List.getElem?_map, h, Option.map_some, e, ge_iff_le,
      ← not_lt, decide_not, Left.neg_neg_iff]

/-- Reversing a triangle that is not flat swaps its class; turning its corners round does not
change it; a flat triangle is back either way. -/
theorem frontback_reverse (t : Tri) :
    (area2 t.a t.b t.c ≠ 0 →
      (frontback [⟨t.c, t.b, t.a⟩]).1 = (frontback [t]).2) ∧
    (area2 t.a t.b t.c = 0 → (frontback [t]).1 = [false] ∧
      (frontback [⟨t.c, t.b, t.a⟩]).1 = [false]) ∧
    (frontback [⟨t.b, t.c, t.a⟩]).1 = (frontback [t]).1 := by
  have e : triZ t = -area2 t.a t.b t.c := by simp only [triZ, area2]; ring
  have e' : triZ ⟨t.c, t.b, t.a⟩ = area2 t.a t.b t.c := by simp only [triZ, area2]; ring
  have e'' : triZ ⟨t.b, t.c, t.a⟩ = -area2 t.a t.b t.c := by simp only [triZ, area2]; ring
  refine ⟨fun h => ?_, fun h => ?_, ?_⟩
  · simp only [frontback, List.map_cons, List.map_nil, e, e', List.cons.injEq, and_true,
      decide_eq_decide, ge_iff_le, Left.nonneg_neg_iff]
    exact ⟨le_of_lt, fun hl => lt_of_le_of_ne hl h⟩
  · simp [frontback, e, e', h]
  · simp only [frontback, List.map_cons, List.map_nil, e, e'']

example : frontback [⟨(0, 0), (1, 0), (0, 1)⟩, ⟨(0, 0), (0, 1), (1, 0)⟩, ⟨(0, 0), (1, 1), (2, 2)⟩]
    = ([true, false, false], [false, true, true]) := by decide +kernel

end Verif
