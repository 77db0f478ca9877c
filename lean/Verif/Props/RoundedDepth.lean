import Verif.Lemmas.RoundedDepth
import Verif.Lemmas.Rounded
/-
C106: rounding draws no element over one that is clearly nearer.
-/

namespace Verif

/-- **C106 for points and markers.** However sums and products are rounded, with a relative error of at most `u`,
and in whatever order they are added: of two points in view whose depths differ by more than `116 u K`, the
farther is drawn first. (`K` says how much cancels in the transform; with float32, `u` is 2⁻²⁴.) -/
theorem points_order_rounded (fl : ℚ → ℚ) (u K : ℚ) (hu : 0 ≤ u) (hfl : ∀ x, |fl x - x| ≤ u * |x|)
    (hK : 1000 * (u * K) ≤ 1) (way : RenderWay) (hway : way.Sums) (s : RScene) (count : Nat)
    (hview : ∀ n < count, s.InView K n) (idx : List Nat) (hidx : IsArgsort (s.pointKeys fl way count) idx) :
    FartherFirstBy (116 * (u * K)) ((List.range count).map s.depth) idx := by
  refine farther_first_by 1 (by simp [RScene.pointKeys]) ?_ hidx
  intro i a x ha hx
  simp only [RScene.pointKeys, List.getElem?_map, Option.map_eq_some_iff, List.getElem?_range] at ha hx
  obtain ⟨n, hn, rfl⟩ := ha
  obtain ⟨m, hm, rfl⟩ := hx
  rw [hn] at hm
  cases hm
  have hlt : n < count := List.mem_range.mp (List.mem_of_getElem? hn)
  obtain ⟨h1, h2⟩ := s.depth_near hfl hu hway hK (hview n hlt)
  have h3 := (hview n hlt).depth
  generalize s.depthRounded fl way n = d at h2 ⊢
  have h4 := hfl (1 - d)
  have h5 : |fl (1 - d) - (1 - s.depth n)| ≤ |fl (1 - d) - (1 - d)| + |d - s.depth n| := by
    have := abs_add_le (fl (1 - d) - (1 - d)) (-(d - s.depth n))
    rw [abs_neg] at this
    calc _ = |fl (1 - d) - (1 - d) + -(d - s.depth n)| := by congr 1; ring
      _ ≤ _ := this
  have h6 : |1 - d| ≤ 3 := by
    have h7 := abs_le.mp h2
    have h8 := abs_le.mp h3
    rw [abs_le]
    constructor <;> linarith [h7.1, h7.2, h8.1, h8.2]
  have h7 : u * |1 - d| ≤ u * 3 := mul_le_mul_of_nonneg_left h6 hu
  have h8 : u ≤ u * K := by nlinarith
  linarith

/-- **C106 for segments, paths and polygons.** The same, for elements of any number of vertices: of two elements
whose mean depths differ by more than `110 u K + 6 (h + 1) u` the farther is drawn first, `h` being the number of
additions that a depth goes through, at most, when the mean is computed. -/
theorem groups_order_rounded (fl : ℚ → ℚ) (u K : ℚ) (hu : 0 ≤ u) (hfl : ∀ x, |fl x - x| ≤ u * |x|)
    (hK : 1000 * (u * K) ≤ 1) (way : RenderWay) (hway : way.Sums) (h : Nat) (hh : 20 * ((h + 1) * u) ≤ 1)
    (s : RScene) (elements : List (List Nat)) (hview : ∀ e ∈ elements, e ≠ [] ∧ ∀ n ∈ e, s.InView K n)
    (hmean : ∀ k e, elements[k]? = some e →
      (way.mean k).leaves.Perm (List.range e.length) ∧ (way.mean k).height ≤ h)
    (idx : List Nat) (hidx : IsArgsort (s.groupKeys fl way elements) idx) :
    FartherFirstBy (110 * (u * K) + 6 * ((h + 1) * u)) (elements.map s.meanDepth) idx := by
  refine farther_first_by 0 (by simp [RScene.groupKeys]) ?_ hidx
  intro i a x ha hx
  simp only [RScene.groupKeys, List.getElem?_map, List.getElem?_mapIdx, Option.map_eq_some_iff] at ha hx
  obtain ⟨e, he, rfl⟩ := ha
  obtain ⟨e', he', rfl⟩ := hx
  rw [he] at he'
  cases he'
  obtain ⟨h1, h2⟩ := hview e (List.mem_of_getElem? he)
  obtain ⟨h3, h4⟩ := hmean i e he
  have := s.mean_near hfl hu hway hK h1 h2 h3 h4 hh
  rw [abs_sub_comm] at this
  calc _ = _ := by congr 1; ring
    _ ≤ _ := this
    _ ≤ _ := by linarith

/-- Sums from left to right, and every product rounded. -/
def plainWay : RenderWay :=
  let way : DotWay := ⟨.add (.add (.add (.leaf 0) (.leaf 1)) (.leaf 2)) (.leaf 3), fun _ => false⟩
  { projView := fun _ _ => way
    all := fun _ _ => way
    vertex := fun _ _ => way
    mean := fun _ => .add (.leaf 0) (.leaf 1) }

theorem plainWay_sums : plainWay.Sums :=
  ⟨fun _ _ => List.Perm.refl _, fun _ _ => List.Perm.refl _, fun _ _ => List.Perm.refl _⟩

/-- A camera that looks from (0, 0, 3) with a perspective projection from 2 to 4, and two points, the second
farther away. -/
def twoPoints : RScene where
  proj := ![![1, 0, 0, 0], ![0, 1, 0, 0], ![0, 0, -3, -8], ![0, 0, -1, 0]]
  view := ![![1, 0, 0, 0], ![0, 1, 0, 0], ![0, 0, 1, -3], ![0, 0, 0, 1]]
  model := 1
  vertex := fun n => if n = 0 then (1 / 3, 0, 1 / 3) else (1 / 5, 1 / 7, 1 / 4)

example : (∀ x, |chop 23 x - x| ≤ 1 / 2 ^ 23 * |x|) ∧ plainWay.Sums ∧ (∀ n < 2, twoPoints.InView 7 n) ∧
    twoPoints.depth 0 + 116 * (1 / 2 ^ 23 * 7) < twoPoints.depth 1 ∧
    IsArgsort (twoPoints.pointKeys (chop 23) plainWay 2) [1, 0] := by
  refine ⟨(chop_rounds 23 (by norm_num)).close, plainWay_sums, fun n hn => ?_, by decide +kernel, ?_⟩
  · obtain rfl | rfl : n = 0 ∨ n = 1 := by omega
    all_goals exact ⟨by decide +kernel, by decide +kernel, by decide +kernel, by decide +kernel⟩
  · unfold IsArgsort; decide +kernel

/-- Two segments. -/
example : (∀ e ∈ [[0, 0], [0, 1]], e ≠ [] ∧ ∀ n ∈ e, twoPoints.InView 7 n) ∧
    twoPoints.meanDepth [0, 0] + (110 * (1 / 2 ^ 23 * 7) + 6 * ((1 + 1) * (1 / 2 ^ 23))) <
      twoPoints.meanDepth [0, 1] ∧
    (∀ k e, [[0, 0], [0, 1]][k]? = some e →
      (plainWay.mean k).leaves.Perm (List.range e.length) ∧ (plainWay.mean k).height ≤ 1) ∧
    IsArgsort (twoPoints.groupKeys (chop 23) plainWay [[0, 0], [0, 1]]) [1, 0] := by
  refine ⟨?_, by decide +kernel, ?_, ?_⟩
  · have h : ∀ n, n = 0 ∨ n = 1 → twoPoints.InView 7 n := by
      rintro n (rfl | rfl)
      all_goals exact ⟨by decide +kernel, by decide +kernel, by decide +kernel, by decide +kernel⟩
    intro e he
    simp only [List.mem_cons, List.not_mem_nil, or_false] at he
    rcases he with rfl | rfl
    · exact ⟨by simp, fun n hn => h n (Or.inl (by simpa using hn))⟩
    · exact ⟨by simp, fun n hn => h n (by simpa using hn)⟩
  · intro k e he
    rcases k with _ | _ | k
    · simp only [List.getElem?_cons_zero, Option.some.injEq] at he
      subst he
      exact ⟨List.Perm.refl _, Nat.le_refl _⟩
    · simp only [Nat.zero_add, List.getElem?_cons_succ, List.getElem?_cons_zero, Option.some.injEq] at he
      subst he
      exact ⟨List.Perm.refl _, Nat.le_refl _⟩
    · simp at he
  · unfold IsArgsort; decide +kernel

/-- **C106 for the camera of the examples.** Of two points or markers in the cube from -1 to 1 whose distances
from the camera differ by more than `22500 u` the farther is drawn first, however the scene has been turned. (With
float32 this is less than 1/700.) -/
theorem camera_order_rounded (fl : ℚ → ℚ) (u : ℚ) (hu : 0 ≤ u) (hu' : 6000 * u ≤ 1)
    (hfl : ∀ x, |fl x - x| ≤ u * |x|) (way : RenderWay) (hway : way.Sums) (s : RScene) (hs : s.OfCamera)
    (count : Nat) (idx : List Nat) (hidx : IsArgsort (s.pointKeys fl way count) idx) :
    FartherFirstBy (22500 * u) ((List.range count).map s.distance) idx := by
  have h := points_order_rounded fl u 6 hu hfl (by linarith) way hway s count (fun n _ => (hs.inView n).1) idx hidx
  intro k l i j a b hi hj ha hb hlt
  simp only [List.getElem?_map, Option.map_eq_some_iff] at ha hb
  obtain ⟨n, hn, rfl⟩ := ha
  obtain ⟨m, hm, rfl⟩ := hb
  exact h k l i j (s.depth n) (s.depth m) hi hj (by simp [hn]) (by simp [hm]) (hs.farther hu hlt)

/-- A scene turned by 90 degrees about the axis y, with three points. -/
def turned : RScene where
  proj := !![3, 0, 0, 0; 0, 3, 0, 0; 0, 0, -(chop 23 (101 / 99)), -(chop 23 (200 / 99)); 0, 0, -1, 0]
  view := !![1, 0, 0, 0; 0, 1, 0, 0; 0, 0, 1, -5; 0, 0, 0, 1]
  model := !![0, 0, 1, 0; 0, 1, 0, 0; -1, 0, 0, 0; 0, 0, 0, 1]
  vertex := fun n => if n = 0 then (1 / 3, 0, 1 / 3) else if n = 1 then (1 / 5, 1 / 7, 1 / 4) else (-1, 1, 1)

example : turned.OfCamera ∧ (List.range 3).map turned.distance = [16 / 3, 26 / 5, 4] ∧
    IsArgsort (turned.pointKeys (chop 23) plainWay 3) [0, 1, 2] := by
  refine ⟨⟨⟨3, 3, chop 23 (101 / 99), chop 23 (200 / 99), rfl, by decide +kernel, by decide +kernel,
    by decide +kernel, by decide +kernel⟩, rfl, by decide +kernel, by decide +kernel, ?_⟩, by decide +kernel, ?_⟩
  · intro n
    simp only [turned]
    split
    · decide +kernel
    · split <;> decide +kernel
  · unfold IsArgsort; decide +kernel

/-- Some bound is needed: two points of different depth, seen without any transform, may have the same key, and
then they are drawn as they come, the nearer first. -/
theorem order_rounded_fails : ∃ (s : RScene) (idx : List Nat), s.proj = 1 ∧ s.view = 1 ∧ s.model = 1 ∧
    (∀ n < 2, s.InView 1 n) ∧ IsArgsort (s.pointKeys (chop 23) plainWay 2) idx ∧
    s.depth 0 < s.depth 1 ∧ ¬ FartherFirst ((List.range 2).map s.depth) idx := by
  refine ⟨⟨1, 1, 1, fun n => if n = 0 then (0, 0, 1 / 2 ^ 30) else (0, 0, 1 / 2 ^ 29)⟩, [0, 1], rfl, rfl, rfl,
    ?_, ?_, by decide +kernel, ?_⟩
  · intro n hn
    obtain rfl | rfl : n = 0 ∨ n = 1 := by omega
    all_goals exact ⟨by decide +kernel, by decide +kernel, by decide +kernel, by decide +kernel⟩
  · unfold IsArgsort; decide +kernel
  · intro h
    have := h 1 0 1 0 (1 / 2 ^ 29) (1 / 2 ^ 30) rfl rfl (by decide +kernel) (by decide +kernel) (by norm_num)
    omega

end Verif
