import Verif.Lemmas.Ball
import Verif.Props.Convex
/-
C118 and C117 for spheres.
-/

namespace Verif

/-- **C118 for spheres.** No vertex of a sphere is on the outer side of any of its faces. -/
theorem sphere_convex {r : ℝ} (hr : 0 ≤ r) {sl : Nat} (st : Nat) (hs : 2 ≤ sl) :
    ConvexMesh (meshTris (sphereVerts r sl st) ((sphereFaces sl st).map (fun f => [f.1, f.2.1, f.2.2]))) := by
  intro G hG F hF n
  obtain ⟨k, hk, m, hm, hv⟩ := sphereVerts_mem (meshTris_corner hF n)
  rw [hv]
  obtain ⟨i0, j0, k0, a, b, c, hf, ha, hb, hc, rfl⟩ := mem_meshTris hG
  obtain ⟨f, hf, he⟩ := List.mem_map.mp hf
  obtain ⟨i, hi, j, hj, h⟩ := mem_sphereFaces.1 hf
  obtain ⟨h1, h2, h3, h4⟩ := cell_points r hi hj
  obtain ⟨q1, q2⟩ := cell_notOutside hr hs hi hj hk hm
  simp only [cellFaces, List.mem_cons, List.not_mem_nil, or_false] at h
  simp only [List.cons.injEq, and_true] at he
  obtain ⟨rfl, rfl, rfl⟩ := he
  rcases h with rfl | rfl
  · rw [h1] at ha
    rw [h2] at hb
    rw [h4] at hc
    cases ha
    cases hb
    cases hc
    exact q1
  · rw [h4] at ha
    rw [h3] at hb
    rw [h1] at hc
    cases ha
    cases hb
    cases hc
    exact q2

/-- Whatever the events, no part of a sphere hides a part of a face that `frontback` tells as a front face. -/
theorem camera_sphere (theta phi zoom zdist scale xlim ylim : ℝ) (es : List CamEvent) {r : ℝ} (hr : 0 ≤ r)
    (hs : 0 < scale) (hn : 1 ≤ zdist - scale * r) (hf : zdist + scale * r ≤ 100) {sl : Nat} (st : Nat) (hsl : 2 ≤ sl) :
    let c := camRun (camInit false theta phi zoom zdist scale xlim ylim) es
    let T := c.proj * c.view * c.model
    let faces := meshTris (sphereVerts r sl st) ((sphereFaces sl st).map (fun f => [f.1, f.2.1, f.2.2]))
    ∀ F ∈ faces, ∀ G ∈ faces, ∃ ps : Fin 3 → V3, (∀ i, screenOf T (G i) = some (ps i)) ∧
      (faceFront (ps 0) (ps 1) (ps 2) →
        ∀ u v, InTriangle F u → InTriangle G v → ¬ Hides T (c.view * c.model) u v) := by
  refine camera_convex_mesh theta phi zoom zdist scale xlim ylim es r hr hs hn hf _ (fun F hF i => ?_)
    (sphere_convex hr st hsl)
  obtain ⟨k, -, m, -, hv⟩ := sphereVerts_mem (meshTris_corner hF i)
  have := ballAt_norm r (rowAngle st k) (colAngle sl m)
  rw [← hv] at this
  simp only [V3.dot] at this
  nlinarith

/-- The default sphere before the default camera. -/
example : (0 : ℝ) ≤ 1 ∧ (0 : ℝ) < 1 ∧ (1 : ℝ) ≤ 5 - 1 * 1 ∧ (5 : ℝ) + 1 * 1 ≤ 100 ∧ 2 ≤ 32 := by norm_num

/-- All faces of a sphere are such triangles. -/
example : (meshTris (sphereVerts 1 3 2) ((sphereFaces 3 2).map (fun f => [f.1, f.2.1, f.2.2]))).length = 12 := rfl

end Verif
