import Verif.Spec.Outward
import Verif.Lemmas.Convex
import Mathlib.Analysis.Real.Sqrt
import Mathlib.Tactic.Linarith
import Mathlib.Tactic.FieldSimp
/-
Lemmas for Props/Outward: points whose coordinates are `a + b r`, where `r` is the golden ratio.
-/

namespace Verif

/-- `a + b r`. -/
def gold (r : ℝ) (p : ℤ × ℤ) : ℝ := p.1 + p.2 * r

def goldSub (p q : ℤ × ℤ) : ℤ × ℤ := (p.1 - q.1, p.2 - q.2)

def goldMul (p q : ℤ × ℤ) : ℤ × ℤ := (p.1 * q.1 + p.2 * q.2, p.1 * q.2 + p.2 * q.1 + p.2 * q.2)

def goldAdd (p q : ℤ × ℤ) : ℤ × ℤ := (p.1 + q.1, p.2 + q.2)

theorem gold_sub (r : ℝ) (p q : ℤ × ℤ) : gold r (goldSub p q) = gold r p - gold r q := by
  simp only [gold, goldSub]
  push_cast
  ring

theorem gold_add (r : ℝ) (p q : ℤ × ℤ) : gold r (goldAdd p q) = gold r p + gold r q := by
  simp only [gold, goldAdd]
  push_cast
  ring

theorem gold_mul {r : ℝ} (h : r * r = r + 1) (p q : ℤ × ℤ) : gold r (goldMul p q) = gold r p * gold r q := by
  simp only [gold, goldMul]
  push_cast
  linear_combination (-(p.2 : ℝ) * q.2) * h

/-- A point with such coordinates. -/
structure G3 where
  x : ℤ × ℤ
  y : ℤ × ℤ
  z : ℤ × ℤ

/-- The point, scaled by `k`. -/
def G3.at (k r : ℝ) (v : G3) : V3 := ⟨k * gold r v.x, k * gold r v.y, k * gold r v.z⟩

/-- How far `v` is on the outer side of the face `a b c`, times the length of the normal. -/
def goldSide (a b c v : G3) : ℤ × ℤ :=
  let bx := goldSub b.x a.x
  let bY := goldSub b.y a.y
  let bz := goldSub b.z a.z
  let cx := goldSub c.x a.x
  let cy := goldSub c.y a.y
  let cz := goldSub c.z a.z
  goldAdd (goldAdd (goldMul (goldSub (goldMul bY cz) (goldMul bz cy)) (goldSub v.x a.x))
    (goldMul (goldSub (goldMul bz cx) (goldMul bx cz)) (goldSub v.y a.y)))
    (goldMul (goldSub (goldMul bx cy) (goldMul bY cx)) (goldSub v.z a.z))

theorem goldSide_eq {r : ℝ} (h : r * r = r + 1) (k : ℝ) (a b c v : G3) :
    (((b.at k r).sub (a.at k r)).cross ((c.at k r).sub (a.at k r))).dot ((v.at k r).sub (a.at k r)) =
      k ^ 3 * gold r (goldSide a b c v) := by
  simp only [goldSide, gold_add, gold_sub, gold_mul h, G3.at, V3.sub, V3.cross, V3.dot]
  ring

/-- Bounds of `r` between fractions tell the sign. -/
theorem gold_nonpos {r : ℝ} (h1 : 1.6 ≤ r) (h2 : r ≤ 1.7) {p : ℤ × ℤ} (hp : 10 * p.1 + 16 * p.2 ≤ 0)
    (hq : 10 * p.1 + 17 * p.2 ≤ 0) : gold r p ≤ 0 := by
  have hp' : (10 * p.1 + 16 * p.2 : ℝ) ≤ 0 := by exact_mod_cast hp
  have hq' : (10 * p.1 + 17 * p.2 : ℝ) ≤ 0 := by exact_mod_cast hq
  unfold gold
  rcases le_total 0 (p.2 : ℝ) with h | h
  · nlinarith
  · nlinarith

theorem gold_neg {r : ℝ} (h1 : 1.6 ≤ r) (h2 : r ≤ 1.7) {p : ℤ × ℤ} (hp : 10 * p.1 + 16 * p.2 < 0)
    (hq : 10 * p.1 + 17 * p.2 < 0) : gold r p < 0 := by
  have hp' : (10 * p.1 + 16 * p.2 : ℝ) < 0 := by exact_mod_cast hp
  have hq' : (10 * p.1 + 17 * p.2 : ℝ) < 0 := by exact_mod_cast hq
  unfold gold
  rcases le_total 0 (p.2 : ℝ) with h | h
  · nlinarith
  · nlinarith

/-- The vertices of the dodecahedron, before they are scaled. -/
def dodecaGold : List G3 :=
  [⟨(-1, 0), (-1, 0), (1, 0)⟩, ⟨(0, 1), (-1, 1), (0, 0)⟩, ⟨(0, 1), (1, -1), (0, 0)⟩, ⟨(0, -1), (-1, 1), (0, 0)⟩,
   ⟨(0, -1), (1, -1), (0, 0)⟩, ⟨(0, 0), (0, 1), (-1, 1)⟩, ⟨(0, 0), (0, 1), (1, -1)⟩, ⟨(-1, 1), (0, 0), (0, -1)⟩,
   ⟨(1, -1), (0, 0), (0, -1)⟩, ⟨(0, 0), (0, -1), (1, -1)⟩, ⟨(0, 0), (0, -1), (-1, 1)⟩, ⟨(-1, 1), (0, 0), (0, 1)⟩,
   ⟨(1, -1), (0, 0), (0, 1)⟩, ⟨(1, 0), (1, 0), (-1, 0)⟩, ⟨(1, 0), (1, 0), (1, 0)⟩, ⟨(-1, 0), (1, 0), (-1, 0)⟩,
   ⟨(-1, 0), (1, 0), (1, 0)⟩, ⟨(1, 0), (-1, 0), (-1, 0)⟩, ⟨(1, 0), (-1, 0), (1, 0)⟩, ⟨(-1, 0), (-1, 0), (-1, 0)⟩]

theorem golden_sq : (1 + Real.sqrt 5) / 2 * ((1 + Real.sqrt 5) / 2) = (1 + Real.sqrt 5) / 2 + 1 := by
  have := Real.mul_self_sqrt (show (0 : ℝ) ≤ 5 by norm_num)
  linear_combination this / 4

theorem golden_bounds : 1.6 ≤ (1 + Real.sqrt 5) / 2 ∧ (1 + Real.sqrt 5) / 2 ≤ 1.7 := by
  have h1 : (2.2 : ℝ) ≤ Real.sqrt 5 := Real.le_sqrt_of_sq_le (by norm_num)
  have h2 : Real.sqrt 5 ≤ 2.4 := Real.sqrt_le_iff.mpr (by norm_num)
  constructor <;> linarith

theorem dodecaVerts_gold : dodecaVerts =
    dodecaGold.map (G3.at (1 / Real.sqrt 3 / 2) ((1 + Real.sqrt 5) / 2)) := by
  have hg := golden_sq
  have hb := golden_bounds
  unfold dodecaVerts
  generalize (1 + Real.sqrt 5) / 2 = r at *
  have hr : r ≠ 0 := by linarith [hb.1]
  have hi : 1 / r = r - 1 := by
    field_simp
    linarith
  have hi' : -1 / r = 1 - r := by
    rw [neg_div, hi]
    ring
  have hk : ∀ v : G3, v.at (1 / Real.sqrt 3 / 2) r = (fun v : V3 =>
      (⟨v.x / Real.sqrt 3 / 2, v.y / Real.sqrt 3 / 2, v.z / Real.sqrt 3 / 2⟩ : V3)) (v.at 1 r) := by
    intro v
    simp only [G3.at, V3.mk.injEq]
    refine ⟨?_, ?_, ?_⟩ <;> ring
  have hm : dodecaGold.map (G3.at (1 / Real.sqrt 3 / 2) r) = (dodecaGold.map (G3.at 1 r)).map (fun v : V3 =>
      (⟨v.x / Real.sqrt 3 / 2, v.y / Real.sqrt 3 / 2, v.z / Real.sqrt 3 / 2⟩ : V3)) := by
    rw [List.map_map]
    exact List.map_congr_left (fun v _ => hk v)
  rw [hm]
  congr 1
  simp only [hi, hi', dodecaGold, List.map_cons, List.map_nil, List.cons.injEq, G3.at, gold, V3.mk.injEq, and_true]
  push_cast
  refine ⟨?_, ?_, ?_, ?_, ?_, ?_, ?_, ?_, ?_, ?_, ?_, ?_, ?_, ?_, ?_, ?_, ?_, ?_, ?_, ?_⟩
  all_goals refine ⟨?_, ?_, ?_⟩ <;> ring

/-- The check of one face on whole numbers. -/
def goldFaceOk (f : List Nat) : Bool :=
  match f with
  | i :: j :: k :: _ =>
    match dodecaGold[i]?, dodecaGold[j]?, dodecaGold[k]? with
    | some a, some b, some c =>
      dodecaGold.all (fun v => decide (10 * (goldSide a b c v).1 + 16 * (goldSide a b c v).2 ≤ 0) &&
        decide (10 * (goldSide a b c v).1 + 17 * (goldSide a b c v).2 ≤ 0)) &&
      dodecaGold.any (fun v => decide (10 * (goldSide a b c v).1 + 16 * (goldSide a b c v).2 < 0) &&
        decide (10 * (goldSide a b c v).1 + 17 * (goldSide a b c v).2 < 0))
    | _, _, _ => false
  | _ => false

theorem mem_meshTris {verts : List V3} {faces : List (List Nat)} {G : Fin 3 → V3} (h : G ∈ meshTris verts faces) :
    ∃ i j k a b c, [i, j, k] ∈ faces ∧ verts[i]? = some a ∧ verts[j]? = some b ∧ verts[k]? = some c ∧
      G = ![a, b, c] := by
  obtain ⟨f, hf, h⟩ := List.mem_filterMap.mp h
  split at h
  · rename_i i j k
    split at h
    · rename_i a b c ha hb hc
      exact ⟨i, j, k, a, b, c, hf, ha, hb, hc, (Option.some.inj h).symm⟩
    · cases h
  · cases h

theorem meshTris_corner {verts : List V3} {faces : List (List Nat)} {G : Fin 3 → V3} (h : G ∈ meshTris verts faces)
    (n : Fin 3) : G n ∈ verts := by
  obtain ⟨i, j, k, a, b, c, -, ha, hb, hc, rfl⟩ := mem_meshTris h
  fin_cases n
  · exact List.mem_of_getElem? ha
  · exact List.mem_of_getElem? hb
  · exact List.mem_of_getElem? hc

/-- The triangles of a mesh whose faces are outward form a convex mesh. -/
theorem convex_of_outward {verts : List V3} {faces : List (List Nat)} (h : FacesOutward verts faces) :
    ConvexMesh (meshTris verts faces) := by
  intro G hG F hF n
  obtain ⟨i, j, k, a, b, c, hf, ha, hb, hc, rfl⟩ := mem_meshTris hG
  exact (h i j k [] hf a b c ha hb hc).1 _ (meshTris_corner hF n)

/-- A step from a point towards the eye stays where affine functions are not positive. -/
theorem step_towards {ι : Type} (l : List ι) (a b : ι → ℝ) (h : ∀ i ∈ l, b i < 0 ∨ b i = 0 ∧ a i ≤ 0) :
    ∃ r : ℝ, 0 < r ∧ r < 1 ∧ ∀ i ∈ l, r * b i + (1 - r) * a i ≤ 0 := by
  induction l with
  | nil => exact ⟨1 / 2, by norm_num, by norm_num, by simp⟩
  | cons i l ih =>
    obtain ⟨r, h0, h1, hr⟩ := ih (fun j hj => h j (List.mem_cons_of_mem _ hj))
    have hle : ∀ s, r ≤ s → s < 1 → ∀ j ∈ l, s * b j + (1 - s) * a j ≤ 0 := by
      intro s hs hs1 j hj
      have hb : b j ≤ 0 := by
        rcases h j (List.mem_cons_of_mem _ hj) with h | h
        · exact h.le
        · exact h.1.le
      have h2 := hr j hj
      by_cases ha : a j ≤ 0
      · nlinarith
      · nlinarith
    rcases h i List.mem_cons_self with hi | ⟨hi, ha⟩
    · by_cases ha : a i ≤ 0
      · exact ⟨r, h0, h1, List.forall_mem_cons.mpr ⟨by nlinarith, hr⟩⟩
      · push Not at ha
        have hd : 0 < a i - b i := by linarith
        have q0 : 0 < a i / (a i - b i) := div_pos ha hd
        have q1 : a i / (a i - b i) < 1 := by
          rw [div_lt_one hd]
          linarith
        refine ⟨max r (a i / (a i - b i)), lt_max_of_lt_left h0, max_lt h1 q1,
          List.forall_mem_cons.mpr ⟨?_, hle _ (le_max_left _ _) (max_lt h1 q1)⟩⟩
        have := (div_le_iff₀ hd).mp (le_max_right r (a i / (a i - b i)))
        linarith
    · refine ⟨r, h0, h1, List.forall_mem_cons.mpr ⟨?_, hr⟩⟩
      rw [hi]
      nlinarith

theorem hides_onWay {V : Mat4 ℝ} (hA : Affine V) {e v : V3} (he : fromEye V e = ⟨0, 0, 0⟩) {r : ℝ} (hr0 : 0 < r)
    (hr1 : r < 1) (zv : (fromEye V v).z < 0) : Hides (glmPerspective 35 1 1 100 * V) V (onWay e v r) v := by
  have hw := fromEye_onWay V he v r
  have zu : (fromEye V (onWay e v r)).z < 0 := by
    rw [hw]
    exact mul_neg_of_pos_of_neg hr0 zv
  refine ⟨?_, ?_⟩
  · unfold eyeDistance
    rw [hw]
    simp only [V3.smul]
    nlinarith
  · have hsc := fun w => screenOf_perspective (fovy := 35) (aspect := 1) (n := 1) (f := 100) (by norm_num)
      (by norm_num) (by norm_num) (by norm_num) (by norm_num) hA w
    simp only [hsc]
    rw [if_neg zv.ne, if_neg zu.ne]
    refine ⟨_, _, rfl, rfl, ?_, ?_⟩
    all_goals
      rw [hw]
      simp only [V3.smul]
      have := zv.ne
      have := hr0.ne'
      field_simp

/-- The octahedron, for any radius of its waist. -/
noncomputable def octaList (r : ℝ) : List (Fin 3 → V3) :=
  [![⟨-r, 0, -r⟩, ⟨r, 0, -r⟩, ⟨0, 1 / 2, 0⟩], ![⟨r, 0, -r⟩, ⟨r, 0, r⟩, ⟨0, 1 / 2, 0⟩],
   ![⟨r, 0, r⟩, ⟨-r, 0, r⟩, ⟨0, 1 / 2, 0⟩], ![⟨-r, 0, r⟩, ⟨-r, 0, -r⟩, ⟨0, 1 / 2, 0⟩],
   ![⟨r, 0, -r⟩, ⟨-r, 0, -r⟩, ⟨0, -(1 / 2), 0⟩], ![⟨r, 0, r⟩, ⟨r, 0, -r⟩, ⟨0, -(1 / 2), 0⟩],
   ![⟨-r, 0, r⟩, ⟨r, 0, r⟩, ⟨0, -(1 / 2), 0⟩], ![⟨-r, 0, -r⟩, ⟨-r, 0, r⟩, ⟨0, -(1 / 2), 0⟩]]

/-- How far `p` is before the plane of `G`, on the side from which the corners run counter-clockwise. -/
def sideOf (G : Fin 3 → V3) (p : V3) : ℝ := (((G 1).sub (G 0)).cross ((G 2).sub (G 0))).dot (p.sub (G 0))

theorem sideOf_mk (a b c p : V3) : sideOf ![a, b, c] p = ((b.sub a).cross (c.sub a)).dot (p.sub a) := rfl

theorem octa_meshTris : meshTris octaVerts octaFaces = octaList (1 / 2 * 1 / Real.sqrt 2) := rfl

theorem octa_reverse : meshTris octaVerts (octaFaces.map List.reverse) =
    (octaList (1 / 2 * 1 / Real.sqrt 2)).map (fun G => ![G 2, G 1, G 0]) := rfl

theorem side_reverse (G : Fin 3 → V3) (p : V3) : sideOf ![G 2, G 1, G 0] p = -sideOf G p := by
  simp only [sideOf_mk]
  simp only [sideOf, V3.sub, V3.cross, V3.dot]
  ring

/-- The middle of a face is behind all other faces. -/
theorem octa_centre {r : ℝ} (hr : 0 < r) : ∀ G ∈ octaList r, ∀ H ∈ octaList r, H = G ∨ 0 < sideOf H (centreOf G) := by
  have hrr := mul_pos hr hr
  have h2 : ∀ a b c : V3, (![a, b, c] : Fin 3 → V3) 2 = c := fun _ _ _ => rfl
  intro G hG H hH
  simp only [octaList, List.mem_cons, List.not_mem_nil, or_false] at hG hH
  rcases hG with rfl | rfl | rfl | rfl | rfl | rfl | rfl | rfl <;>
    rcases hH with rfl | rfl | rfl | rfl | rfl | rfl | rfl | rfl <;>
    first
      | exact Or.inl rfl
      | (right
         simp only [sideOf_mk, centreOf, V3.sub, V3.cross, V3.dot, h2, Matrix.cons_val_zero, Matrix.cons_val_one]
         ring_nf
         nlinarith)

theorem side_centre (G : Fin 3 → V3) : sideOf G (centreOf G) = 0 := by
  simp only [sideOf, centreOf, V3.sub, V3.cross, V3.dot]
  ring

/-- Some face has any given point on its listed front side. -/
theorem octa_some_front {r : ℝ} (hr : 0 < r) (p : V3) : ∃ G ∈ octaList r, 0 < sideOf G p := by
  by_contra h
  push Not at h
  have hrr := mul_pos hr hr
  have h0 := h _ (List.mem_cons_self)
  have h1 := h ![⟨-r, 0, r⟩, ⟨r, 0, r⟩, ⟨0, -(1 / 2), 0⟩] (by simp [octaList])
  simp only [sideOf_mk, V3.sub, V3.cross, V3.dot] at h0 h1
  nlinarith

theorem dodeca_check : dodecaFaces.all goldFaceOk = true := by decide +kernel

end Verif
