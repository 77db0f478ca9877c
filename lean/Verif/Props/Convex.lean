import Verif.Lemmas.Convex
import Verif.Props.FrontFace
import Verif.Props.Fill
/-
C117: the front faces of a convex mesh are seen whole.
-/

namespace Verif

open Matrix

/-- No point that is not on the outer side of a front face hides a point of the face. All is in front of the eye. -/
theorem front_face_unhidden {fovy aspect n f : ℝ} (h0 : 0 < fovy) (h1 : fovy < 180) (ha : 0 < aspect) (hn : 0 < n)
    (hf : n < f) {V : Mat4 ℝ} (hV : Affine V) {F G ps : Fin 3 → V3} (hF : ∀ i, (fromEye V (F i)).z < 0)
    (hG : ∀ i, (fromEye V (G i)).z < 0)
    (hps : ∀ i, screenOf (glmPerspective fovy aspect n f * V) (G i) = some (ps i))
    (hfront : faceFront (ps 0) (ps 1) (ps 2)) (hout : ∀ i, NotOutside (fun j => fromEye V (G j)) (fromEye V (F i)))
    {u v : V3} (hu : InTriangle F u) (hv : InTriangle G v) :
    ¬ Hides (glmPerspective fovy aspect n f * V) V u v := by
  have ht := half_tan_pos h0 h1
  have hk := mul_pos ha ht
  have htow := (front_face_partial h0 h1 ha hn hf hV (hG 0) (hG 1) (hG 2) (hps 0) (hps 1) (hps 2)).mp hfront
  obtain ⟨s, hs, hs1, rfl⟩ := hu
  obtain ⟨t, ht0, ht1, rfl⟩ := hv
  rintro ⟨hd, p, q, hp, hq, hx, hy⟩
  have zneg : ∀ (w : Fin 3 → ℝ) (P : Fin 3 → V3), (∀ i, 0 ≤ w i) → ∑ i, w i = 1 → (∀ i, (fromEye V (P i)).z < 0) →
      (fromEye V ⟨∑ i, w i * (P i).x, ∑ i, w i * (P i).y, ∑ i, w i * (P i).z⟩).z < 0 := by
    intro w P hw hw1 hP
    rw [fromEye_mix V P w hw1]
    have := mix_pos (w := fun i => -(fromEye V (P i)).z) (fun i => neg_pos.mpr (hP i)) hw hw1
    simp only [mul_neg, Finset.sum_neg_distrib] at this
    linarith
  have zu := zneg s F hs hs1 hF
  have zv := zneg t G ht0 ht1 hG
  have inside : ∑ i, s i * (((fromEye V (G 1)).sub (fromEye V (G 0))).cross
      ((fromEye V (G 2)).sub (fromEye V (G 0)))).dot ((fromEye V (F i)).sub (fromEye V (G 0))) ≤ 0 :=
    Finset.sum_nonpos (fun i _ => mul_nonpos_of_nonneg_of_nonpos (hs i) (hout i))
  have onplane : ∑ i, t i * (((fromEye V (G 1)).sub (fromEye V (G 0))).cross
      ((fromEye V (G 2)).sub (fromEye V (G 0)))).dot ((fromEye V (G i)).sub (fromEye V (G 0))) = 0 := by
    simp only [Fin.sum_univ_three, V3.sub, V3.cross, V3.dot]
    ring
  rw [← plane_mix _ _ (fun i => fromEye V (F i)) s hs1, ← fromEye_mix V F s hs1] at inside
  rw [← plane_mix _ _ (fun i => fromEye V (G i)) t ht1, ← fromEye_mix V G t ht1] at onplane
  unfold TowardsEye at htow
  unfold eyeDistance at hd
  rw [screenOf_perspective h0 h1 ha hn hf hV] at hp hq
  generalize fromEye V ⟨∑ i, s i * (F i).x, ∑ i, s i * (F i).y, ∑ i, s i * (F i).z⟩ = U at *
  generalize fromEye V ⟨∑ i, t i * (G i).x, ∑ i, t i * (G i).y, ∑ i, t i * (G i).z⟩ = W at *
  rw [if_neg zv.ne] at hp
  rw [if_neg zu.ne] at hq
  rw [← Option.some.inj hp, ← Option.some.inj hq] at hx hy
  have hU : U = V3.smul (U.z / W.z) W := same_place hk.ne' ht.ne' zu zv hx.symm hy.symm
  generalize (((fromEye V (G 1)).sub (fromEye V (G 0))).cross ((fromEye V (G 2)).sub (fromEye V (G 0)))) = N at *
  generalize fromEye V (G 0) = g at *
  have hρ : U.z / W.z < 1 := by
    rw [div_lt_one_of_neg zv]
    linarith
  have hmix : N.dot (U.sub g) = U.z / W.z * N.dot (W.sub g) + (1 - U.z / W.z) * N.dot ((⟨0, 0, 0⟩ : V3).sub g) := by
    have : N.dot (U.sub g) = N.dot ((V3.smul (U.z / W.z) W).sub g) := by rw [← hU]
    rw [this]
    simp only [V3.dot, V3.sub, V3.smul]
    ring
  rw [hmix, onplane] at inside
  have := mul_pos (sub_pos.mpr hρ) htow
  linarith

/-- **C117.** Whatever the events: of a convex mesh around the origin that lies between the planes of the camera, no
part hides any part of a front face. Front faces may therefore be drawn in any order. -/
theorem camera_convex_mesh (theta phi zoom zdist scale xlim ylim : ℝ) (es : List CamEvent) (R : ℝ) (hR : 0 ≤ R)
    (hs : 0 < scale) (hn : 1 ≤ zdist - scale * R) (hf : zdist + scale * R ≤ 100) (faces : List (Fin 3 → V3))
    (hball : ∀ F ∈ faces, ∀ i, (F i).x ^ 2 + (F i).y ^ 2 + (F i).z ^ 2 ≤ R ^ 2) (hconv : ConvexMesh faces) :
    let c := camRun (camInit false theta phi zoom zdist scale xlim ylim) es
    let T := c.proj * c.view * c.model
    ∀ F ∈ faces, ∀ G ∈ faces, ∃ ps : Fin 3 → V3, (∀ i, screenOf T (G i) = some (ps i)) ∧
      (faceFront (ps 0) (ps 1) (ps 2) →
        ∀ u v, InTriangle F u → InTriangle G v → ¬ Hides T (c.view * c.model) u v) := by
  intro c T F hF G hG
  have kb := fun (P : Fin 3 → V3) (hP : P ∈ faces) i =>
    camera_between theta phi zoom zdist scale xlim ylim es R hR hs.le hn hf (P i) (hball P hP i)
  have ka := fun i => camera_ahead theta phi zoom zdist scale xlim ylim es R hR hs.le hn hf (G i) (hball G hG i)
  choose ps hps using fun i => screenOf_ahead (ka i).ne'
  have hz : ∀ P ∈ faces, ∀ i, (fromEye (c.view * c.model) (P i)).z < 0 := fun P hP i => by
    have := (kb P hP i).2.2.1
    change 1 ≤ -(fromEye (c.view * c.model) (P i)).z at this
    linarith
  have hT : T = glmPerspective 35 1 1 100 * (c.view * c.model) := by
    rw [← (kb G hG 0).1]
    exact Matrix.mul_assoc _ _ _
  refine ⟨ps, hps, fun hfront u v hu hv => ?_⟩
  have hps' : ∀ i, screenOf T (G i) = some (ps i) := hps
  rw [hT] at hps' ⊢
  refine front_face_unhidden (by norm_num) (by norm_num) (by norm_num) (by norm_num) (by norm_num) (kb G hG 0).2.1
    (hz F hF) (hz G hG) hps' hfront (fun i => ?_) hu hv
  obtain ⟨-, hview, b, _, hok, hm⟩ := camOk_run zdist scale es _ (camOk_init theta phi zoom zdist scale xlim ylim)
  change c.view = _ at hview
  change c.model = _ at hm
  have h3 := camera_triple hok.1 zdist scale (G 0) (G 1) (G 2) (F i)
  rw [← hok.2, ← hm, ← hview] at h3
  unfold NotOutside
  simp only at h3 ⊢
  rw [h3]
  exact mul_nonpos_of_nonneg_of_nonpos (by positivity) (hconv G hG F hF i)

/-- **C117.** Whatever the events: of a closed convex mesh around the origin that lies between the planes of the
camera, the front faces are all that is seen. Each point of the solid is on a front face, or a point of a front face
hides it. -/
theorem camera_convex_hidden (theta phi zoom zdist scale xlim ylim : ℝ) (es : List CamEvent) (R : ℝ) (hR : 0 ≤ R)
    (hs : 0 < scale) (hn : 1 ≤ zdist - scale * R) (hf : zdist + scale * R ≤ 100) (faces : List (Fin 3 → V3))
    (hconv : ConvexMesh faces) (hclosed : ClosedMesh faces)
    (hball : ∀ p, InSolid faces p → p.x ^ 2 + p.y ^ 2 + p.z ^ 2 ≤ R ^ 2) :
    let c := camRun (camInit false theta phi zoom zdist scale xlim ylim) es
    let T := c.proj * c.view * c.model
    ∀ v, InSolid faces v → ∃ G ∈ faces, ∃ ps : Fin 3 → V3, (∀ i, screenOf T (G i) = some (ps i)) ∧
      faceFront (ps 0) (ps 1) (ps 2) ∧ ∃ u, InTriangle G u ∧ (u = v ∨ Hides T (c.view * c.model) u v) := by
  intro c T v hv
  obtain ⟨eye, he, hfront⟩ := camera_front_faces_scene theta phi zoom zdist scale xlim ylim es R hR hs hn hf
  change fromEye (c.view * c.model) eye = _ at he
  have kb := fun (p : V3) (hp : InSolid faces p) =>
    camera_between theta phi zoom zdist scale xlim ylim es R hR hs.le hn hf p (hball p hp)
  have hz : ∀ p, InSolid faces p → (fromEye (c.view * c.model) p).z < 0 := fun p hp => by
    have := (kb p hp).2.2.1
    change 1 ≤ -(fromEye (c.view * c.model) p).z at this
    linarith
  have hT : T = glmPerspective 35 1 1 100 * (c.view * c.model) := by
    rw [← (kb v hv).1]
    exact Matrix.mul_assoc _ _ _
  have hout : ∃ G ∈ faces, 0 < (((G 1).sub (G 0)).cross ((G 2).sub (G 0))).dot (eye.sub (G 0)) := by
    by_contra hno
    push Not at hno
    have := hz eye hno
    rw [he] at this
    exact lt_irrefl _ this
  obtain ⟨G, hG, hGe, r, hr0, hr1, hplane, hin⟩ := enters faces
    (fun G => (((G 1).sub (G 0)).cross ((G 2).sub (G 0))).dot (eye.sub (G 0)))
    (fun G => (((G 1).sub (G 0)).cross ((G 2).sub (G 0))).dot (v.sub (G 0))) hv hout
  simp only [← onWay_side] at hplane hin
  obtain ⟨H, hH, hu, hside⟩ := hclosed G hG _ hin hplane
  obtain ⟨ps, hps, hface⟩ := hfront H (fun i => hball _ (fun K hK => hconv K hK H hH i))
  refine ⟨H, hH, ps, hps, hface.mpr ?_, _, hu, ?_⟩
  · have := mt (hside eye).mp (not_le.mpr hGe)
    exact not_le.mp this
  · rcases hr1.eq_or_lt with rfl | hr1
    · left
      ext <;> simp [onWay]
    · right
      have hw := fromEye_onWay (c.view * c.model) he v r
      have zv := hz v hv
      have zu := hz _ hin
      refine ⟨?_, ?_⟩
      · unfold eyeDistance
        rw [hw]
        simp only [V3.smul]
        nlinarith
      · rw [hT]
        have hA : Affine (c.view * c.model) := (kb v hv).2.1
        have hsc := fun w => screenOf_perspective (fovy := 35) (aspect := 1) (n := 1) (f := 100) (by norm_num)
          (by norm_num) (by norm_num) (by norm_num) (by norm_num) hA w
        simp only [hsc]
        rw [if_neg zv.ne, if_neg zu.ne]
        refine ⟨_, _, rfl, rfl, ?_, ?_⟩
        all_goals
          rw [hw]
          simp only [V3.smul]
          have := zv.ne
          have := hr0.ne'
          field_simp

/-- **C117.** Whatever the events, the front faces of a closed convex mesh, filled in any order, are the right picture
of the solid: they fill the places where the solid is seen and no others, and what a front face shows at a place is
the point of the solid that nothing hides. -/
theorem camera_convex_picture (theta phi zoom zdist scale xlim ylim : ℝ) (es : List CamEvent) (R : ℝ) (hR : 0 ≤ R)
    (hs : 0 < scale) (hn : 1 ≤ zdist - scale * R) (hf : zdist + scale * R ≤ 100) (faces : List (Fin 3 → V3))
    (hconv : ConvexMesh faces) (hclosed : ClosedMesh faces)
    (hball : ∀ p, InSolid faces p → p.x ^ 2 + p.y ^ 2 + p.z ^ 2 ≤ R ^ 2) (x y : ℝ) :
    let c := camRun (camInit false theta phi zoom zdist scale xlim ylim) es
    let T := c.proj * c.view * c.model
    ((∃ v r, InSolid faces v ∧ screenOf T v = some r ∧ r.x = x ∧ r.y = y) ↔
      ∃ G ∈ faces, ∃ ps : Fin 3 → V3, (∀ i, screenOf T (G i) = some (ps i)) ∧ faceFront (ps 0) (ps 1) (ps 2) ∧
        fillShows ps x y) ∧
    ∀ G ∈ faces, ∀ ps : Fin 3 → V3, (∀ i, screenOf T (G i) = some (ps i)) → faceFront (ps 0) (ps 1) (ps 2) →
      fillShows ps x y → ∃ u r, InTriangle G u ∧ screenOf T u = some r ∧ r.x = x ∧ r.y = y ∧
        ∀ v, InSolid faces v → ¬ Hides T (c.view * c.model) v u := by
  intro c T
  have hvert : ∀ G ∈ faces, ∀ i, InSolid faces (G i) := fun G hG i K hK => hconv K hK G hG i
  have kb := fun (p : V3) (hp : InSolid faces p) =>
    camera_between theta phi zoom zdist scale xlim ylim es R hR hs.le hn hf p (hball p hp)
  have ka : ∀ p, InSolid faces p → 0 < ahead T p := fun p hp =>
    camera_ahead theta phi zoom zdist scale xlim ylim es R hR hs.le hn hf p (hball p hp)
  have hfill := fun (G : Fin 3 → V3) (hG : G ∈ faces) (ps : Fin 3 → V3)
    (hps : ∀ i, screenOf T (G i) = some (ps i)) =>
      triangle_shows_partial T hps (fun i => ka _ (hvert G hG i)) x y
  refine ⟨⟨?_, ?_⟩, ?_⟩
  · rintro ⟨v, r, hv, hr, hx, hy⟩
    obtain ⟨G, hG, ps, hps, hfront, u, hu, h⟩ :=
      camera_convex_hidden theta phi zoom zdist scale xlim ylim es R hR hs hn hf faces hconv hclosed hball v hv
    refine ⟨G, hG, ps, hps, hfront, (hfill G hG ps hps).mpr ?_⟩
    rcases h with rfl | ⟨-, p, q, hp, hq, hpx, hpy⟩
    · exact ⟨u, r, hu, hr, hx, hy⟩
    · have : p = r := Option.some.inj (hp.symm.trans hr)
      subst this
      exact ⟨u, q, hu, hq, hpx.symm.trans hx, hpy.symm.trans hy⟩
  · rintro ⟨G, hG, ps, hps, -, h⟩
    obtain ⟨v, r, hv, hr, hx, hy⟩ := (hfill G hG ps hps).mp h
    exact ⟨v, r, inSolid_of_face hconv hG hv, hr, hx, hy⟩
  · intro G hG ps hps hfront h
    obtain ⟨u, r, hu, hr, hx, hy⟩ := (hfill G hG ps hps).mp h
    refine ⟨u, r, hu, hr, hx, hy, fun v hv => ?_⟩
    have hz : ∀ p, InSolid faces p → (fromEye (c.view * c.model) p).z < 0 := fun p hp => by
      have := (kb p hp).2.2.1
      change 1 ≤ -(fromEye (c.view * c.model) p).z at this
      linarith
    have hT : T = glmPerspective 35 1 1 100 * (c.view * c.model) := by
      rw [← (kb v hv).1]
      exact Matrix.mul_assoc _ _ _
    rw [hT] at hps ⊢
    refine front_face_unhidden (by norm_num) (by norm_num) (by norm_num) (by norm_num) (by norm_num) (kb v hv).2.1
      (fun _ => hz v hv) (fun i => hz _ (hvert G hG i)) hps hfront (fun _ => ?_) (inTriangle_const v) hu
    obtain ⟨-, hview, b, _, hok, hm⟩ := camOk_run zdist scale es _ (camOk_init theta phi zoom zdist scale xlim ylim)
    change c.view = _ at hview
    change c.model = _ at hm
    have h3 := camera_triple hok.1 zdist scale (G 0) (G 1) (G 2) v
    rw [← hok.2, ← hm, ← hview] at h3
    unfold NotOutside
    simp only at h3 ⊢
    rw [h3]
    exact mul_nonpos_of_nonneg_of_nonpos (by positivity) (hv G hG)

/-- The faces of a tetrahedron. -/
def tetra : List (Fin 3 → V3) := [![⟨0, 0, 0⟩, ⟨0, 1, 0⟩, ⟨1, 0, 0⟩], ![⟨0, 0, 0⟩, ⟨1, 0, 0⟩, ⟨0, 0, 1⟩],
  ![⟨0, 0, 0⟩, ⟨0, 0, 1⟩, ⟨0, 1, 0⟩], ![⟨1, 0, 0⟩, ⟨0, 1, 0⟩, ⟨0, 0, 1⟩]]

theorem tetra_solid (p : V3) : InSolid tetra p ↔ 0 ≤ p.z ∧ 0 ≤ p.y ∧ 0 ≤ p.x ∧ p.x + p.y + p.z ≤ 1 := by
  have h2 : ∀ a b c : V3, (![a, b, c] : Fin 3 → V3) 2 = c := fun _ _ _ => rfl
  simp only [InSolid, tetra, List.forall_mem_cons, NotOutside, V3.sub, V3.cross, V3.dot, h2, Matrix.cons_val_zero,
    Matrix.cons_val_one, List.not_mem_nil, false_imp_iff, implies_true, and_true]
  refine and_congr ?_ (and_congr ?_ (and_congr ?_ ?_))
  all_goals
    constructor
    all_goals
      intro h
      linarith

/-- The tetrahedron is a closed convex mesh that lies within the ball of radius 1, which a camera at distance 5 has
between its planes. -/
example : ConvexMesh tetra ∧ ClosedMesh tetra ∧
    (∀ p, InSolid tetra p → p.x ^ 2 + p.y ^ 2 + p.z ^ 2 ≤ 1 ^ 2) ∧
      (1 : ℝ) ≤ 5 - 1 * 1 ∧ (5 : ℝ) + 1 * 1 ≤ 100 := by
  have h2 : ∀ a b c : V3, (![a, b, c] : Fin 3 → V3) 2 = c := fun _ _ _ => rfl
  refine ⟨fun G hG F hF i => ?_, fun G hG p hp h0 => ?_, fun p hp => ?_, by norm_num, by norm_num⟩
  · have : InSolid tetra (F i) := by
      rw [tetra_solid]
      simp only [tetra, List.mem_cons, List.not_mem_nil, or_false] at hF
      rcases hF with rfl | rfl | rfl | rfl <;> fin_cases i <;> norm_num [h2]
    exact this G hG
  · refine ⟨G, hG, ?_, fun _ => Iff.rfl⟩
    obtain ⟨hz, hy, hx, h1⟩ := (tetra_solid p).mp hp
    simp only [tetra, List.mem_cons, List.not_mem_nil, or_false] at hG
    rcases hG with rfl | rfl | rfl | rfl
    all_goals simp only [V3.sub, V3.cross, V3.dot, h2, Matrix.cons_val_zero, Matrix.cons_val_one] at h0
    · refine ⟨![1 - p.x - p.y, p.y, p.x], fun i => ?_, ?_, ?_⟩
      · fin_cases i <;> simp <;> linarith
      · simp [Fin.sum_univ_three]
      · ext <;> simp [Fin.sum_univ_three]; linarith
    · refine ⟨![1 - p.x - p.z, p.x, p.z], fun i => ?_, ?_, ?_⟩
      · fin_cases i <;> simp <;> linarith
      · simp [Fin.sum_univ_three]; ring
      · ext <;> simp [Fin.sum_univ_three]; linarith
    · refine ⟨![1 - p.y - p.z, p.z, p.y], fun i => ?_, ?_, ?_⟩
      · fin_cases i <;> simp <;> linarith
      · simp [Fin.sum_univ_three]
      · ext <;> simp [Fin.sum_univ_three]; linarith
    · refine ⟨![p.x, p.y, p.z], fun i => ?_, ?_, ?_⟩
      · fin_cases i <;> simp <;> linarith
      · simp [Fin.sum_univ_three]; linarith
      · ext <;> simp [Fin.sum_univ_three]
  · obtain ⟨hz, hy, hx, h1⟩ := (tetra_solid p).mp hp
    nlinarith [mul_nonneg hx hy, mul_nonneg hx hz, mul_nonneg hy hz]

end Verif
