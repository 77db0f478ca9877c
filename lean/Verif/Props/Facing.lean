import Verif.Spec.Facing
import Verif.Props.Glm
/-! # C89: markers with an axis -/

namespace Verif

open Matrix

/-! ### The matrix of a marker -/

theorem norm_ez : (V3.mk 0 0 1).norm = 1 := by simp [V3.norm, V3.dot]

/-- The direction of a marker is not that of the line of sight. -/
def Slanted (U : V3) : Prop := U.x ≠ 0 ∨ U.y ≠ 0

theorem slanted_norm {U : V3} (h : Slanted U) : U.norm ≠ 0 := by
  rw [norm_ne_zero]
  intro h0
  rw [h0] at h
  rcases h with h | h <;> exact h rfl

theorem slanted_cross {U : V3} (h : Slanted U) : (U.cross ⟨0, 0, 1⟩).norm ≠ 0 := by
  rw [norm_ne_zero]
  intro h0
  simp only [V3.cross, V3.mk.injEq] at h0
  obtain ⟨h1, h2, _⟩ := h0
  rcases h with h | h
  · exact h (by linarith)
  · exact h (by linarith)

/-- The part of the matrix that is used does not change when the matrix is inverted. -/
theorem align_ez_symm {U : V3} {M : Mat4 ℝ} (h : glmAlign 0 U ⟨0, 0, 1⟩ = some M) :
    M 0 1 = M 1 0 ∧ M 0 3 = 0 ∧ M 1 3 = 0 ∧ M 3 0 = 0 ∧ M 3 1 = 0 ∧ M 3 3 = 1 ∧ M 2 3 = 0 ∧ M 3 2 = 0 := by
  unfold glmAlign at h
  simp only at h
  split at h
  · cases h
  · cases h
    have hz : ((glmNormalize 0 U).cross (glmNormalize 0 ⟨0, 0, 1⟩)).z = 0 := by
      simp [V3.cross, glmNormalize, V3.smul]
    refine ⟨?_, ?_, ?_, ?_, ?_, ?_, ?_, ?_⟩ <;>
      simp [transposeIf, hz, Matrix.mul_apply, Fin.sum_univ_three, Matrix.one_apply] <;> ring_nf <;> simp

theorem lean_faces {U : V3} (hU : Slanted U) (angle : ℝ) (o : Outline) :
    ∃ drawn, lean U (o.map (turn angle)) = some drawn ∧ FacesDirection U angle o drawn := by
  obtain ⟨M, hM, ⟨hrot, hdet⟩, htake⟩ := align_takes (slanted_norm hU)
    (by rw [norm_ez]; exact one_ne_zero) (slanted_cross hU)
  obtain ⟨s1, s2, s3, s4, s5, s6, s7, s8⟩ := align_ez_symm hM
  have hrot' : M * M.transpose = 1 := mul_eq_one_comm.1 hrot
  refine ⟨(o.map (turn angle)).map (fun p => ((M *ᵥ ![p.1, p.2, 0, 1]) 0, (M *ᵥ ![p.1, p.2, 0, 1]) 1)),
    by unfold lean; rw [hM]; rfl, M.transpose, ⟨by rw [Matrix.transpose_transpose]; exact hrot',
    by rw [Matrix.det_transpose]; exact hdet⟩, ?_, ?_⟩
  · have h := congrArg (fun v => M.transpose *ᵥ v) htake
    simp only [Matrix.mulVec_mulVec, hrot, Matrix.one_mulVec, norm_ez] at h
    rw [h]
    simp
  · rw [List.map_map, List.forall₂_map_right_iff]
    refine List.forall₂_same.2 (fun p _ => ?_)
    refine ⟨(M.transpose *ᵥ pt (Real.cos (radians angle) * p.1 - Real.sin (radians angle) * p.2)
      (Real.sin (radians angle) * p.1 + Real.cos (radians angle) * p.2) 0) 2, ?_⟩
    ext j
    fin_cases j <;>
      simp [Matrix.mulVec, dotProduct, Fin.sum_univ_four, pt, turn, s1, s2, s3, s4, s5, s6, s7, s8]

/-- A direction that is the line of sight, or no direction, gives no numbers. -/
theorem lean_none {U : V3} (hU : ¬ Slanted U) (o : Outline) : lean U o = none := by
  unfold Slanted at hU
  push Not at hU
  unfold lean glmAlign
  simp only
  rw [if_pos]
  · rfl
  · by_contra h
    apply (norm_ne_zero _).1 h
    refine V3.ext' ?_ ?_ ?_ <;> simp [glmNormalize, V3.smul, V3.cross, hU]

/-! ### The markers of a visual -/

theorem mapM_forall₂ {α β : Type} {f : α → Except Err β} : ∀ {l : List α} {l' : List β},
    l.mapM f = .ok l' ↔ List.Forall₂ (fun a b => f a = .ok b) l l' := by
  intro l
  induction l with
  | nil =>
    intro l'
    simp only [List.mapM_nil, List.forall₂_nil_left_iff]
    exact ⟨fun h => (Except.ok.inj h).symm, fun h => h ▸ rfl⟩
  | cons a l ih =>
    intro l'
    rw [List.mapM_cons]
    constructor
    · intro h
      cases hf : f a with
      | error e => rw [hf] at h; cases h
      | ok b =>
        rw [hf] at h
        cases hl : l.mapM f with
        | error e => rw [hl] at h; cases h
        | ok bs =>
          rw [hl] at h
          cases h
          exact .cons hf (ih.1 hl)
    · intro h
      cases h with
      | cons h1 h2 => rw [h1, ih.2 h2]; rfl

/-- Which paths are generated. -/
theorem generate_iff {outline : Nat → Option Outline} {axis : Option (PerMarker V3)}
    {types : PerMarker Nat} {angles : PerMarker ℝ} {positions : List V3} {paths : List (Option Outline)} :
    generateMarkers outline axis types angles positions = .ok paths ↔
      paths.length = positions.length ∧ ∀ (i : Nat) (p : V3), positions[i]? = some p →
        ∃ d, paths[i]? = some d ∧ oneMarker outline axis types angles i p = .ok d := by
  unfold generateMarkers
  rw [mapM_forall₂, List.forall₂_iff_get]
  simp only [List.length_zipIdx, List.get_eq_getElem, List.getElem_zipIdx, Nat.zero_add]
  constructor
  · rintro ⟨h1, h2⟩
    refine ⟨h1.symm, fun i p hp => ?_⟩
    obtain ⟨hi, rfl⟩ := List.getElem?_eq_some_iff.1 hp
    exact ⟨paths[i], List.getElem?_eq_getElem _, h2 i hi (by omega)⟩
  · rintro ⟨h1, h2⟩
    refine ⟨h1.symm, fun i hi hi' => ?_⟩
    obtain ⟨d, hd, hf⟩ := h2 i positions[i] (List.getElem?_eq_getElem _)
    rw [List.getElem?_eq_getElem hi'] at hd
    cases hd
    exact hf

theorem pickType_iff {types : PerMarker Nat} {i t : Nat} : pickType types i = .ok t ↔ types.at i = some t := by
  cases types with
  | one x => simp [pickType, PerMarker.at]
  | many xs =>
    simp only [pickType, PerMarker.at]
    cases xs[i]? <;> simp

theorem pickAngle_at {angles : PerMarker ℝ} {i : Nat} {a : ℝ} (h : angles.at i = some a) :
    pickAngle angles i = .ok a := by
  cases angles with
  | one x => simp only [pickAngle, PerMarker.at] at h ⊢; rw [Option.some.inj h]
  | many xs => simp only [PerMarker.at] at h; simp only [pickAngle, h]

theorem pickAngle_iff {angles : PerMarker ℝ} {i : Nat} :
    (∃ a, pickAngle angles i = .ok a) ↔ (∃ a, angles.at i = some a) ∨ ∃ a, angles = .many [a] := by
  cases angles with
  | one x => exact ⟨fun _ => .inl ⟨x, rfl⟩, fun _ => ⟨x, rfl⟩⟩
  | many xs =>
    simp only [pickAngle, PerMarker.at]
    cases h : xs[i]? with
    | some a => exact ⟨fun _ => .inl ⟨a, rfl⟩, fun _ => ⟨a, rfl⟩⟩
    | none =>
      dsimp only
      match xs with
      | [] => simp
      | [a] => simp
      | a :: b :: l => simp

theorem oneMarker_eq {outline : Nat → Option Outline} {axis : Option (PerMarker V3)}
    {types : PerMarker Nat} {angles : PerMarker ℝ} {i t : Nat} {p : V3} {o : Outline} {a : ℝ}
    (ht : types.at i = some t) (ho : outline t = some o) (ha : pickAngle angles i = .ok a) :
    oneMarker outline axis types angles i p =
      .ok (match axis with | none => some (o.map (turn a)) | some _ => lean p (o.map (turn a))) := by
  unfold oneMarker
  rw [pickType_iff.2 ht, ha]
  show (match outline t with
    | none => Except.error Err.keyError
    | some o => match axis with
      | none => .ok (some (o.map (turn a)))
      | some _ => .ok (lean p (o.map (turn a)))) = _
  rw [ho]
  cases axis <;> rfl

/-- When a marker gets a path: it finds a type that has an outline, and an angle. -/
theorem oneMarker_ok_iff {outline : Nat → Option Outline} {axis : Option (PerMarker V3)}
    {types : PerMarker Nat} {angles : PerMarker ℝ} {i : Nat} {p : V3} :
    (∃ d, oneMarker outline axis types angles i p = .ok d) ↔
      (∃ t o, types.at i = some t ∧ outline t = some o) ∧
      ((∃ a, angles.at i = some a) ∨ ∃ a, angles = .many [a]) := by
  rw [← pickAngle_iff]
  constructor
  · rintro ⟨d, h⟩
    unfold oneMarker at h
    cases ht : pickType types i with
    | error e => rw [ht] at h; cases h
    | ok t =>
      rw [ht] at h
      cases ha : pickAngle angles i with
      | error e => rw [ha] at h; cases h
      | ok a =>
        rw [ha] at h
        refine ⟨?_, a, rfl⟩
        cases ho : outline t with
        | none =>
          simp only [bind, Except.bind, ho] at h
          cases h
        | some o => exact ⟨t, o, pickType_iff.1 ht, ho⟩
  · rintro ⟨⟨t, o, ht, ho⟩, a, ha⟩
    exact ⟨_, oneMarker_eq ht ho ha⟩

/-! ### C89 -/

/-- The claim: however axes, types, angles and positions are given, and whatever the model matrix, every
marker faces the axis it was given. -/
def MarkersFaceAxis : Prop :=
  ∀ (outline : Nat → Option Outline) (axis : PerMarker V3) (types : PerMarker Nat) (angles : PerMarker ℝ)
    (model : Mat4 ℝ) (positions : List V3) (paths : List (Option Outline)), IsRotation model →
    renderedMarkers outline (some axis) types angles model positions = .ok paths →
    ∀ (i : Nat) p d t o a, positions[i]? = some p → axis.at i = some d → types.at i = some t →
      outline t = some o → angles.at i = some a →
      ∃ drawn, paths[i]? = some (some drawn) ∧ FacesDirection (placed model d) a o drawn

/-- Markers with an axis, of any number, with types and angles for all or for each: marker `i` is drawn
with the outline of its type, turned by its angle, facing the direction of its own position (moved by
the model matrix), unless it is on the line of sight through the origin. The value of the axis is not
used. Missing: the axis that was given, and the markers on that line. -/
theorem markers_face_position_partial {outline : Nat → Option Outline} {axis : PerMarker V3}
    {types : PerMarker Nat} {angles : PerMarker ℝ} {model : Mat4 ℝ} {positions : List V3}
    {paths : List (Option Outline)}
    (h : renderedMarkers outline (some axis) types angles model positions = .ok paths)
    {i t : Nat} {p : V3} {o : Outline} {a : ℝ} (hp : positions[i]? = some p) (ht : types.at i = some t)
    (ho : outline t = some o) (ha : angles.at i = some a) (hs : Slanted (placed model p)) :
    ∃ drawn, paths[i]? = some (some drawn) ∧ FacesDirection (placed model p) a o drawn := by
  obtain ⟨_, h2⟩ := generate_iff.1 h
  obtain ⟨d, hd, hf⟩ := h2 i (placed model p) (by rw [List.getElem?_map, hp]; rfl)
  rw [oneMarker_eq ht ho (pickAngle_at ha)] at hf
  obtain ⟨drawn, h3, h4⟩ := lean_faces hs a o
  cases hf
  exact ⟨drawn, by rw [hd]; exact congrArg some h3, h4⟩

/-- So they face their axis when it is the position, as in examples/markers-3d.py. -/
theorem markers_face_axis_partial {outline : Nat → Option Outline} {axis : PerMarker V3}
    {types : PerMarker Nat} {angles : PerMarker ℝ} {model : Mat4 ℝ} {positions : List V3}
    {paths : List (Option Outline)}
    (h : renderedMarkers outline (some axis) types angles model positions = .ok paths)
    (hax : ∀ i p, positions[i]? = some p → axis.at i = some p)
    {i t : Nat} {p d : V3} {o : Outline} {a : ℝ} (hp : positions[i]? = some p) (hd : axis.at i = some d)
    (ht : types.at i = some t) (ho : outline t = some o) (ha : angles.at i = some a)
    (hs : Slanted (placed model p)) :
    ∃ drawn, paths[i]? = some (some drawn) ∧ FacesDirection (placed model d) a o drawn := by
  have := hax i p hp
  rw [hd] at this
  cases this
  exact markers_face_position_partial h hp ht ho ha hs

/-- The direction is that of the place to which the model matrix moves the position, in homogeneous
coordinates: the place `v` that is `w` times the product of the matrix and the position. -/
theorem markers_face_place_partial {outline : Nat → Option Outline} {axis : PerMarker V3}
    {types : PerMarker Nat} {angles : PerMarker ℝ} {model : Mat4 ℝ} {positions : List V3}
    {paths : List (Option Outline)}
    (h : renderedMarkers outline (some axis) types angles model positions = .ok paths)
    {i t : Nat} {p v : V3} {o : Outline} {a w : ℝ} (hp : positions[i]? = some p)
    (ht : types.at i = some t) (ho : outline t = some o) (ha : angles.at i = some a)
    (hw : w ≠ 0) (hv : model *ᵥ p.point = w • v.point) (hs : Slanted v) :
    ∃ drawn, paths[i]? = some (some drawn) ∧ FacesDirection v a o drawn := by
  have e : placed model p = v := by
    simp only [placed, hv]
    obtain ⟨x, y, z⟩ := v
    simp [V3.point, hw]
  rw [← e] at hs ⊢
  exact markers_face_position_partial h hp ht ho ha hs

/-- For a matrix whose last row is not `0, 0, 0, 1`: (2, 0, 4) is moved to (1, 0, 2). -/
example : (!![1, 0, 0, 0; 0, 1, 0, 0; 0, 0, 1, 0; 0, 0, 0, 2] : Mat4 ℝ) *ᵥ (⟨2, 0, 4⟩ : V3).point
    = (2 : ℝ) • (⟨1, 0, 2⟩ : V3).point ∧ Slanted ⟨1, 0, 2⟩ := by
  refine ⟨?_, by simp [Slanted]⟩
  ext i
  fin_cases i <;> simp [V3.point, Matrix.mulVec, dotProduct, Fin.sum_univ_four] <;> norm_num

/-- A marker on the line of sight through the origin is not drawn. -/
theorem marker_on_line_of_sight {outline : Nat → Option Outline} {axis : PerMarker V3}
    {types : PerMarker Nat} {angles : PerMarker ℝ} {model : Mat4 ℝ} {positions : List V3}
    {paths : List (Option Outline)}
    (h : renderedMarkers outline (some axis) types angles model positions = .ok paths)
    {i : Nat} {p : V3} (hp : positions[i]? = some p) (hs : ¬ Slanted (placed model p)) :
    paths[i]? = some none := by
  obtain ⟨_, h2⟩ := generate_iff.1 h
  obtain ⟨d, hd, hf⟩ := h2 i (placed model p) (by rw [List.getElem?_map, hp]; rfl)
  obtain ⟨⟨t, o, ht, ho⟩, hx⟩ := oneMarker_ok_iff.1 ⟨d, hf⟩
  obtain ⟨a, ha⟩ := pickAngle_iff.2 hx
  rw [oneMarker_eq ht ho ha, lean_none hs] at hf
  cases hf
  exact hd

/-- The value of the axis does not matter. -/
theorem axis_value_ignored (outline : Nat → Option Outline) (axis axis' : PerMarker V3)
    (types : PerMarker Nat) (angles : PerMarker ℝ) (model : Mat4 ℝ) (positions : List V3) :
    renderedMarkers outline (some axis) types angles model positions =
      renderedMarkers outline (some axis') types angles model positions := rfl

/-- Without an axis, markers are upright wherever they are: the outline of the type, turned by the
angle. -/
theorem markers_upright {outline : Nat → Option Outline} {types : PerMarker Nat} {angles : PerMarker ℝ}
    {model : Mat4 ℝ} {positions : List V3} {paths : List (Option Outline)}
    (h : renderedMarkers outline none types angles model positions = .ok paths)
    {i t : Nat} {p : V3} {o : Outline} {a : ℝ} (hp : positions[i]? = some p) (ht : types.at i = some t)
    (ho : outline t = some o) (ha : angles.at i = some a) :
    paths[i]? = some (some (o.map (fun q =>
      (Real.cos (radians a) * q.1 - Real.sin (radians a) * q.2,
        Real.sin (radians a) * q.1 + Real.cos (radians a) * q.2)))) := by
  obtain ⟨_, h2⟩ := generate_iff.1 h
  obtain ⟨d, hd, hf⟩ := h2 i (placed model p) (by rw [List.getElem?_map, hp]; rfl)
  rw [oneMarker_eq ht ho (pickAngle_at ha)] at hf
  cases hf
  exact hd

/-- Markers are made exactly when each finds a type that has an outline, and each finds an angle or there
is an array with a single angle: one type given in an array is not enough for two markers, one angle is. -/
theorem markers_made_iff {outline : Nat → Option Outline} {axis : Option (PerMarker V3)}
    {types : PerMarker Nat} {angles : PerMarker ℝ} {model : Mat4 ℝ} {positions : List V3} :
    (∃ paths, renderedMarkers outline axis types angles model positions = .ok paths) ↔
      ∀ i < positions.length, (∃ t o, types.at i = some t ∧ outline t = some o) ∧
        ((∃ a, angles.at i = some a) ∨ ∃ a, angles = .many [a]) := by
  constructor
  · rintro ⟨paths, h⟩ i hi
    obtain ⟨_, h2⟩ := generate_iff.1 h
    obtain ⟨d, _, hf⟩ := h2 i (placed model positions[i]) (by simp [List.getElem?_eq_getElem hi])
    exact oneMarker_ok_iff.1 ⟨d, hf⟩
  · intro h
    have hall : ∀ i, i < positions.length → ∃ d, oneMarker outline axis types angles i
        (placed model (positions[i]?.getD ⟨0, 0, 0⟩)) = .ok d := fun i hi => oneMarker_ok_iff.2 (h i hi)
    choose! g hg using hall
    refine ⟨(List.range positions.length).map g, generate_iff.2 ⟨by simp, fun i p hp => ?_⟩⟩
    rw [List.getElem?_map] at hp
    obtain ⟨p0, hp0, rfl⟩ := Option.map_eq_some_iff.1 hp
    have hi := (List.getElem?_eq_some_iff.1 hp0).1
    refine ⟨g i, by simp [List.getElem?_range hi], ?_⟩
    have := hg i hi
    rw [hp0] at this
    exact this

theorem rotation_dot {R : Mat4 ℝ} (h : IsRotation R) (u v : Fin 4 → ℝ) :
    (R *ᵥ u) ⬝ᵥ (R *ᵥ v) = u ⬝ᵥ v := by
  rw [Matrix.dotProduct_mulVec, Matrix.vecMul_mulVec, h.1, Matrix.vecMul_one]

theorem pt_dot (a b c x y z : ℝ) : pt a b c ⬝ᵥ pt x y z = a * x + b * y + c * z + 1 := by
  simp [pt, dotProduct, Fin.sum_univ_four]

/-- What a marker of two perpendicular arms looks like from the front. -/
theorem arms_front {q r : ℝ × ℝ} (h : FacesDirection ⟨0, 0, 1⟩ 0 [(1, 0), (0, 1)] [q, r]) :
    q.1 * q.1 + q.2 * q.2 = 1 ∧ r.1 * r.1 + r.2 * r.2 = 1 ∧ q.1 * r.1 + q.2 * r.2 = 0 := by
  obtain ⟨R, hR, hz, h2⟩ := h
  simp only [List.forall₂_cons, radians, zero_mul, Real.cos_zero, Real.sin_zero, mul_one, mul_zero, sub_zero,
    zero_sub, add_zero, zero_add, one_mul, norm_ez, div_one] at hz h2
  obtain ⟨⟨z, hq⟩, ⟨z', hr⟩, _⟩ := h2
  have e1 := rotation_dot hR (pt 1 0 0) (pt 0 0 1)
  have e2 := rotation_dot hR (pt 0 1 0) (pt 0 0 1)
  have e3 := rotation_dot hR (pt 1 0 0) (pt 1 0 0)
  have e4 := rotation_dot hR (pt 0 1 0) (pt 0 1 0)
  have e5 := rotation_dot hR (pt 1 0 0) (pt 0 1 0)
  simp only [hz, hq, hr, pt_dot] at e1 e2 e3 e4 e5
  have hz0 : z = 0 := by linarith
  have hz1 : z' = 0 := by linarith
  subst hz0 hz1
  refine ⟨by linarith, by linarith, by linarith⟩

/-- And from the side. -/
theorem arms_side {q r : ℝ × ℝ} (h : FacesDirection ⟨1, 0, 0⟩ 0 [(1, 0), (0, 1)] [q, r]) :
    q.1 = 0 ∧ r.1 = 0 := by
  obtain ⟨R, hR, hz, h2⟩ := h
  have hn : (V3.mk 1 0 0).norm = 1 := by simp [V3.norm, V3.dot]
  simp only [List.forall₂_cons, radians, zero_mul, Real.cos_zero, Real.sin_zero, mul_one, mul_zero, sub_zero,
    zero_sub, add_zero, zero_add, one_mul, hn, div_one] at hz h2
  obtain ⟨⟨z, hq⟩, ⟨z', hr⟩, _⟩ := h2
  have e1 := rotation_dot hR (pt 1 0 0) (pt 0 0 1)
  have e2 := rotation_dot hR (pt 0 1 0) (pt 0 0 1)
  simp only [hz, hq, hr, pt_dot] at e1 e2
  exact ⟨by linarith, by linarith⟩

/-- The claim fails: a marker at (1, 0, 0) that should face the viewer is seen from its edge. -/
theorem markers_face_axis_fails : ¬ MarkersFaceAxis := by
  intro h
  have hrot : IsRotation (1 : Mat4 ℝ) := by constructor <;> simp
  have hpl : ∀ x y z : ℝ, placed (1 : Mat4 ℝ) ⟨x, y, z⟩ = ⟨x, y, z⟩ := by
    intro x y z
    simp [placed, V3.point]
  obtain ⟨paths, hpaths⟩ := (markers_made_iff (outline := fun _ => some [(1, 0), (0, 1)])
    (axis := some (.one ⟨0, 0, 1⟩)) (types := .one 1) (angles := .one 0) (model := 1)
    (positions := [⟨1, 0, 0⟩])).2 (fun i _ => ⟨⟨1, _, rfl, rfl⟩, .inl ⟨0, rfl⟩⟩)
  obtain ⟨drawn, h1, h2⟩ := h (fun _ => some [(1, 0), (0, 1)]) (.one ⟨0, 0, 1⟩) (.one 1) (.one 0) 1
    [⟨1, 0, 0⟩] paths hrot hpaths 0 ⟨1, 0, 0⟩ ⟨0, 0, 1⟩ 1 [(1, 0), (0, 1)] 0 rfl rfl rfl rfl rfl
  obtain ⟨drawn', h1', h2'⟩ := markers_face_position_partial hpaths (i := 0)
    (p := ⟨1, 0, 0⟩) (t := 1) (o := [(1, 0), (0, 1)]) (a := 0) rfl rfl rfl rfl
    (by rw [hpl]; exact .inl one_ne_zero)
  rw [h1] at h1'
  cases h1'
  rw [hpl] at h2 h2'
  have hlen : ∃ q r, drawn = [q, r] := by
    obtain ⟨_, _, _, h3⟩ := h2
    have := h3.length_eq
    match drawn, this with
    | [q, r], _ => exact ⟨q, r, rfl⟩
  obtain ⟨q, r, rfl⟩ := hlen
  obtain ⟨e1, e2, e3⟩ := arms_front h2
  obtain ⟨e4, e5⟩ := arms_side h2'
  rw [e4] at e1 e3
  rw [e5] at e2 e3
  have : (q.2 * q.2) * (r.2 * r.2) = 0 := by linear_combination (q.2 * r.2) * e3
  have h1 : q.2 * q.2 = 1 := by linarith
  have h2 : r.2 * r.2 = 1 := by linarith
  rw [h1, h2] at this
  norm_num at this

/-- Two markers of different types and angles with the axis of examples/markers-3d.py, and a model matrix
that turns the scene. -/
example : ∃ paths, renderedMarkers (fun t => if t < 13 then some [(1, 0), (0, 1)] else none)
    (some (.many [⟨1, 0, 0⟩, ⟨0, 1, 1⟩])) (.many [3, 5]) (.many [0, 45]) (glmZrotate 30)
    [⟨1, 0, 0⟩, ⟨0, 1, 1⟩] = .ok paths :=
  markers_made_iff.2 (fun i hi => by
    have : i = 0 ∨ i = 1 := by simp at hi; omega
    rcases this with rfl | rfl
    · exact ⟨⟨3, _, rfl, rfl⟩, .inl ⟨0, rfl⟩⟩
    · exact ⟨⟨5, _, rfl, rfl⟩, .inl ⟨45, rfl⟩⟩)

/-- One type in an array is refused for two markers, one angle is used for both. -/
example : (¬ ∃ paths, renderedMarkers (fun _ => some [(1, 0)]) none (.many [3]) (.one 0) 1
      [⟨1, 0, 0⟩, ⟨0, 1, 1⟩] = .ok paths) ∧
    ∃ paths, renderedMarkers (fun _ => some [(1, 0)]) none (.one 3) (.many [45]) 1
      [⟨1, 0, 0⟩, ⟨0, 1, 1⟩] = .ok paths := by
  constructor
  · rw [markers_made_iff]
    intro h
    obtain ⟨⟨t, o, ht, _⟩, _⟩ := h 1 (by simp)
    simp [PerMarker.at] at ht
  · exact markers_made_iff.2 (fun i _ => ⟨⟨3, _, rfl, rfl⟩, .inr ⟨45, rfl⟩⟩)

end Verif
