import Verif.Model.Shapes
import Verif.Spec.Shapes
import Mathlib.Algebra.BigOperators.Group.Finset.Basic
import Mathlib.Algebra.Order.BigOperators.Group.List
import Mathlib.Algebra.BigOperators.Intervals
import Mathlib.Tactic.Ring
import Mathlib.Tactic.FieldSimp
import Mathlib.Tactic.Linarith
import Mathlib.Tactic.LinearCombination
/-
Lemmas on meshes.
-/

namespace Verif

theorem triples_append : ∀ (xs ys : List Nat), 3 ∣ xs.length →
    triples (xs ++ ys) = triples xs ++ triples ys
  | [], _, _ => by simp [triples]
  | [_], _, h => by simp at h
  | [_, _], _, h => by simp at h
  | a :: b :: c :: l, ys, h => by
    have h' : 3 ∣ l.length := by simp only [List.length_cons] at h; omega
    simp [triples, triples_append l ys h']

theorem triples_flatMap {α : Type} (g : α → List Nat) (h : ∀ x, 3 ∣ (g x).length) :
    ∀ l : List α, triples (l.flatMap g) = l.flatMap (fun x => triples (g x))
  | [] => rfl
  | x :: l => by
    simp only [List.flatMap_cons]
    rw [triples_append _ _ (h x), triples_flatMap g h l]

theorem dvd_length_flatMap {α : Type} (g : α → List Nat) (h : ∀ x, 3 ∣ (g x).length) :
    ∀ l : List α, 3 ∣ (l.flatMap g).length
  | [] => by simp
  | x :: l => by
    simp only [List.flatMap_cons, List.length_append]
    exact Nat.dvd_add (h x) (dvd_length_flatMap g h l)

/-- The two faces of the cell `(i, j)`. -/
def cellFaces (sl i j : Nat) : List (Nat × Nat × Nat) :=
  [(i * (sl + 1) + j, i * (sl + 1) + j + 1, i * (sl + 1) + j + (sl + 1) + 1),
   (i * (sl + 1) + j + (sl + 1) + 1, i * (sl + 1) + j + (sl + 1), i * (sl + 1) + j)]

theorem sphereFaces_eq (sl st : Nat) :
    sphereFaces sl st =
      (List.range st).flatMap (fun i => (List.range sl).flatMap (fun j => cellFaces sl i j)) := by
  unfold sphereFaces sphereIndices
  simp only [Nat.add_sub_cancel]
  rw [triples_flatMap _ (fun i => dvd_length_flatMap _ (fun j => by simp) _)]
  congr 1; funext i
  rw [triples_flatMap _ (fun j => by simp)]
  rfl

theorem mem_sphereFaces {sl st : Nat} {f : Nat × Nat × Nat} :
    f ∈ sphereFaces sl st ↔ ∃ i < st, ∃ j < sl, f ∈ cellFaces sl i j := by
  rw [sphereFaces_eq]
  simp only [List.mem_flatMap, List.mem_range]

/-- The angles of row `i` and of column `j`. -/
noncomputable def rowAngle (st i : Nat) : ℝ := i * Real.pi / ((st + 1 : Nat) - 1 : ℝ)
@[inherit_doc rowAngle]
noncomputable def colAngle (sl j : Nat) : ℝ := j * (2 * Real.pi) / ((sl + 1 : Nat) - 1 : ℝ)

/-- The point with these angles. -/
noncomputable def ballAt (r t1 t2 : ℝ) : V3 :=
  ⟨Real.sin t1 * Real.sin t2 * r, Real.sin t1 * Real.cos t2 * r, Real.cos t1 * r⟩

theorem linspace_length (b : ℝ) (n : Nat) : (linspace b n).length = n := by simp [linspace]

theorem linspace_get (b : ℝ) (n k : Nat) (h : k < n) :
    (linspace b n)[k]? = some ((k : ℝ) * b / ((n : ℝ) - 1)) := by
  simp [linspace, h]

theorem flatMap_replicate_get {α : Type} (s : Nat) : ∀ (l : List α) (i j : Nat), j < s →
    (l.flatMap (fun t => List.replicate s t))[i * s + j]? = l[i]?
  | [], _, _, _ => by simp
  | x :: l, 0, j, h => by
    rw [List.flatMap_cons, List.getElem?_append_left (by simpa using h)]
    simp [h]
  | x :: l, i + 1, j, h => by
    rw [List.flatMap_cons, List.getElem?_append_right (by simp; nlinarith)]
    have e : (i + 1) * s + j - (List.replicate s x).length = i * s + j := by
      simp; rw [Nat.add_mul]; omega
    rw [e, flatMap_replicate_get s l i j h]
    simp

theorem flatten_replicate_get {α : Type} (l : List α) : ∀ (n i j : Nat), i < n → j < l.length →
    (List.replicate n l).flatten[i * l.length + j]? = l[j]?
  | 0, _, _, h, _ => by omega
  | n + 1, 0, j, _, h => by
    rw [List.replicate_succ, List.flatten_cons, List.getElem?_append_left (by simpa using h)]
    simp
  | n + 1, i + 1, j, hi, h => by
    rw [List.replicate_succ, List.flatten_cons, List.getElem?_append_right (by nlinarith)]
    have e : (i + 1) * l.length + j - l.length = i * l.length + j := by
      rw [Nat.add_mul]; omega
    rw [e, flatten_replicate_get l n i j (by omega) h]

theorem sphereVerts_get (r : ℝ) {sl st i j : Nat} (hi : i ≤ st) (hj : j ≤ sl) :
    (sphereVerts r sl st)[i * (sl + 1) + j]? =
      some (ballAt r (rowAngle st i) (colAngle sl j)) := by
  unfold sphereVerts
  simp only [List.getElem?_zipWith]
  rw [flatMap_replicate_get _ _ _ _ (by omega), linspace_get _ _ _ (by omega)]
  have e : i * (sl + 1) + j = i * (linspace (2 * Real.pi) (sl + 1)).length + j := by
    rw [linspace_length]
  rw [e, flatten_replicate_get _ _ _ _ (by omega) (by rw [linspace_length]; omega),
    linspace_get _ _ _ (by omega)]
  simp [ballAt, rowAngle, colAngle]

theorem sphereVerts_length (r : ℝ) (sl st : Nat) :
    (sphereVerts r sl st).length = (sl + 1) * (st + 1) := by
  unfold sphereVerts
  simp [List.length_flatMap, linspace_length, Nat.mul_comm]

/-! ### Closed surfaces -/

/-- Contribution of one direction of a side, less that of the other. -/
theorem telescope {α : Type} (f : α → α → ℤ) (hf : ∀ a b, f b a = -f a b) (P : Nat → Nat → α)
    (sl st : Nat) (hseam : ∀ i, P i sl = P i 0) (h0 : ∀ j, P 0 j = P 0 0)
    (h1 : ∀ j, P st j = P st 0) :
    (∑ i ∈ Finset.range st, ∑ j ∈ Finset.range sl,
      ((f (P i j) (P i (j + 1)) + f (P i (j + 1)) (P (i + 1) (j + 1)) +
          f (P (i + 1) (j + 1)) (P i j)) +
        (f (P (i + 1) (j + 1)) (P (i + 1) j) + f (P (i + 1) j) (P i j) +
          f (P i j) (P (i + 1) (j + 1))))) = 0 := by
  have haa : ∀ a, f a a = 0 := fun a => by have := hf a a; omega
  have e : ∀ i j, ((f (P i j) (P i (j + 1)) + f (P i (j + 1)) (P (i + 1) (j + 1)) +
          f (P (i + 1) (j + 1)) (P i j)) +
        (f (P (i + 1) (j + 1)) (P (i + 1) j) + f (P (i + 1) j) (P i j) +
          f (P i j) (P (i + 1) (j + 1)))) =
      (f (P i j) (P i (j + 1)) - f (P (i + 1) j) (P (i + 1) (j + 1))) +
      (f (P i (j + 1)) (P (i + 1) (j + 1)) - f (P i j) (P (i + 1) j)) := fun i j => by
    rw [hf (P i j) (P (i + 1) (j + 1)), hf (P (i + 1) j) (P (i + 1) (j + 1)),
      hf (P i j) (P (i + 1) j)]
    ring
  simp only [e, Finset.sum_add_distrib]
  have hv : ∀ i, (∑ j ∈ Finset.range sl,
      (f (P i (j + 1)) (P (i + 1) (j + 1)) - f (P i j) (P (i + 1) j))) = 0 := fun i => by
    rw [Finset.sum_range_sub (fun j => f (P i j) (P (i + 1) j)) sl, hseam i, hseam (i + 1)]
    ring
  simp only [hv, Finset.sum_const_zero, add_zero]
  rw [Finset.sum_comm]
  refine Finset.sum_eq_zero (fun j _ => ?_)
  rw [Finset.sum_range_sub' (fun i => f (P i j) (P i (j + 1))) st, h0 j, h0 (j + 1), h1 j,
    h1 (j + 1), haa, haa]
  rfl

theorem sum_range_list (g : Nat → ℤ) (n : Nat) :
    ((List.range n).map g).sum = ∑ i ∈ Finset.range n, g i := by
  induction n with
  | zero => rfl
  | succ n ih => rw [List.range_succ, List.map_append, List.sum_append, ih, Finset.sum_range_succ]; simp

/-- Sum over the sides. -/
theorem sum_sides {α : Type} (f : α → α → ℤ) (g : Nat → Nat → List (α × α × α)) (sl st : Nat) :
    ((((List.range st).flatMap (fun i => (List.range sl).flatMap (fun j => g i j))).flatMap
      sides).map (fun s => f s.1 s.2)).sum =
    ∑ i ∈ Finset.range st, ∑ j ∈ Finset.range sl,
      (((g i j).flatMap sides).map (fun s => f s.1 s.2)).sum := by
  have key : ∀ (β : Type) (h : β → List (α × α)) (l : List β),
      ((l.flatMap h).map (fun s => f s.1 s.2)).sum =
        (l.map (fun x => ((h x).map (fun s => f s.1 s.2)).sum)).sum := fun β h l => by
    induction l with
    | nil => rfl
    | cons x l ih => simp [List.flatMap_cons, ih]
  rw [List.flatMap_assoc, key, sum_range_list]
  refine Finset.sum_congr rfl (fun i _ => ?_)
  rw [List.flatMap_assoc, key, sum_range_list]

open Classical in
theorem count_sub_count {α : Type} (p q : α) (l : List (α × α)) :
    (l.map (fun s => ((if (s.1, s.2) = (p, q) then 1 else 0 : ℤ) -
      (if (s.1, s.2) = (q, p) then 1 else 0 : ℤ)))).sum =
      (l.count (p, q) : ℤ) - (l.count (q, p) : ℤ) := by
  induction l with
  | nil => simp
  | cons s l ih =>
    simp only [List.map_cons, List.sum_cons, ih, List.count_cons, Prod.mk.eta, beq_iff_eq]
    push_cast
    ring

open Classical in
theorem closedSurface_of_sum {α : Type} (ts : List (α × α × α))
    (h : ∀ f : α → α → ℤ, (∀ a b, f b a = -f a b) →
      ((ts.flatMap sides).map (fun s => f s.1 s.2)).sum = 0) : ClosedSurface ts := by
  intro p q
  have hc := count_sub_count p q (ts.flatMap sides)
  rw [h (fun a b => (if (a, b) = (p, q) then 1 else 0 : ℤ) - (if (a, b) = (q, p) then 1 else 0 : ℤ))
    (fun a b => by
      have e1 : ((b, a) = (p, q)) ↔ ((a, b) = (q, p)) := by simp [and_comm]
      have e2 : ((b, a) = (q, p)) ↔ ((a, b) = (p, q)) := by simp [and_comm]
      simp only [e1, e2]; ring)] at hc
  have := sub_eq_zero.1 hc.symm
  exact_mod_cast this

/-! ### Orientation -/

theorem volume_first (r t u p q : ℝ) :
    volume (ballAt r t p) (ballAt r t q) (ballAt r u q) =
      r ^ 3 * Real.sin t * Real.sin (q - p) * Real.sin (u - t) := by
  simp only [volume, ballAt, Real.sin_sub]
  ring

theorem volume_second (r t u p q : ℝ) :
    volume (ballAt r u q) (ballAt r u p) (ballAt r t p) =
      r ^ 3 * Real.sin u * Real.sin (q - p) * Real.sin (u - t) := by
  simp only [volume, ballAt, Real.sin_sub]
  ring

theorem ballAt_norm (r t p : ℝ) : (ballAt r t p).dot (ballAt r t p) = r ^ 2 := by
  simp only [V3.dot, ballAt]
  linear_combination r ^ 2 * Real.sin_sq_add_cos_sq t +
    r ^ 2 * (Real.sin t) ^ 2 * Real.sin_sq_add_cos_sq p

theorem rowAngle_zero (st : Nat) : rowAngle st 0 = 0 := by simp [rowAngle]

theorem rowAngle_eq (st i : Nat) : rowAngle st i = i * (Real.pi / st) := by
  unfold rowAngle; push_cast; rw [add_sub_cancel_right]; ring

theorem colAngle_eq (sl j : Nat) : colAngle sl j = j * (2 * Real.pi / sl) := by
  unfold colAngle; push_cast; rw [add_sub_cancel_right]; ring

theorem rowAngle_last {st : Nat} (h : 0 < st) : rowAngle st st = Real.pi := by
  rw [rowAngle_eq]; have : (st : ℝ) ≠ 0 := by positivity
  field_simp

theorem colAngle_last {sl : Nat} (h : 0 < sl) : colAngle sl sl = 2 * Real.pi := by
  rw [colAngle_eq]; have : (sl : ℝ) ≠ 0 := by positivity
  field_simp

theorem rowAngle_succ_sub (st i : Nat) : rowAngle st (i + 1) - rowAngle st i = Real.pi / st := by
  rw [rowAngle_eq, rowAngle_eq]; push_cast; ring

theorem colAngle_succ_sub (sl j : Nat) :
    colAngle sl (j + 1) - colAngle sl j = 2 * Real.pi / sl := by
  rw [colAngle_eq, colAngle_eq]; push_cast; ring

theorem sin_rowAngle_nonneg {st i : Nat} (h : i ≤ st) : 0 ≤ Real.sin (rowAngle st i) := by
  rcases Nat.eq_zero_or_pos st with h0 | h0
  · subst h0; simp at h; subst h; simp [rowAngle_zero]
  · refine Real.sin_nonneg_of_nonneg_of_le_pi ?_ ?_
    · rw [rowAngle_eq]; have := Real.pi_pos; positivity
    · rw [← rowAngle_last h0, rowAngle_eq, rowAngle_eq]
      have := Real.pi_pos
      have h' : (i : ℝ) ≤ st := by exact_mod_cast h
      exact mul_le_mul_of_nonneg_right h' (by positivity)

theorem sin_rowAngle_pos {st i : Nat} (h : i < st) (hi : 0 < i) :
    0 < Real.sin (rowAngle st i) := by
  have h0 : 0 < st := by omega
  refine Real.sin_pos_of_pos_of_lt_pi ?_ ?_
  · rw [rowAngle_eq]; have := Real.pi_pos; positivity
  · rw [← rowAngle_last h0, rowAngle_eq, rowAngle_eq]
    have := Real.pi_pos
    have h' : (i : ℝ) < st := by exact_mod_cast h
    exact mul_lt_mul_of_pos_right h' (by positivity)

theorem sin_pi_div_nonneg (st : Nat) : 0 ≤ Real.sin (Real.pi / st) := by
  rcases Nat.eq_zero_or_pos st with h | h
  · subst h; simp
  · refine Real.sin_nonneg_of_nonneg_of_le_pi (by have := Real.pi_pos; positivity) ?_
    exact div_le_self Real.pi_pos.le (by exact_mod_cast h)

theorem sin_pi_div_pos {st : Nat} (h : 2 ≤ st) : 0 < Real.sin (Real.pi / st) := by
  have h' : (2 : ℝ) ≤ st := by exact_mod_cast h
  refine Real.sin_pos_of_pos_of_lt_pi (by have := Real.pi_pos; positivity) ?_
  exact div_lt_self Real.pi_pos (by linarith)

theorem sin_two_pi_div_nonneg {sl : Nat} (h : 2 ≤ sl) : 0 ≤ Real.sin (2 * Real.pi / sl) := by
  have h' : (2 : ℝ) ≤ sl := by exact_mod_cast h
  refine Real.sin_nonneg_of_nonneg_of_le_pi (by have := Real.pi_pos; positivity) ?_
  rw [div_le_iff₀ (by linarith)]
  nlinarith [Real.pi_pos]

theorem sin_two_pi_div_pos {sl : Nat} (h : 3 ≤ sl) : 0 < Real.sin (2 * Real.pi / sl) := by
  have h' : (3 : ℝ) ≤ sl := by exact_mod_cast h
  refine Real.sin_pos_of_pos_of_lt_pi (by have := Real.pi_pos; positivity) ?_
  rw [div_lt_iff₀ (by linarith)]
  nlinarith [Real.pi_pos]

theorem ballAt_pole (r p q : ℝ) : ballAt r 0 p = ballAt r 0 q := by simp [ballAt]

theorem ballAt_pole' (r p q : ℝ) : ballAt r Real.pi p = ballAt r Real.pi q := by simp [ballAt]

theorem ballAt_seam (r t : ℝ) : ballAt r t (2 * Real.pi) = ballAt r t 0 := by simp [ballAt]

/-- The corners of the faces of a cell. -/
theorem cell_points (r : ℝ) {sl st i j : Nat} (hi : i < st) (hj : j < sl) :
    (sphereVerts r sl st)[i * (sl + 1) + j]? =
      some (ballAt r (rowAngle st i) (colAngle sl j)) ∧
    (sphereVerts r sl st)[i * (sl + 1) + j + 1]? =
      some (ballAt r (rowAngle st i) (colAngle sl (j + 1))) ∧
    (sphereVerts r sl st)[i * (sl + 1) + j + (sl + 1)]? =
      some (ballAt r (rowAngle st (i + 1)) (colAngle sl j)) ∧
    (sphereVerts r sl st)[i * (sl + 1) + j + (sl + 1) + 1]? =
      some (ballAt r (rowAngle st (i + 1)) (colAngle sl (j + 1))) := by
  have e1 : i * (sl + 1) + j + 1 = i * (sl + 1) + (j + 1) := by ring
  have e2 : i * (sl + 1) + j + (sl + 1) = (i + 1) * (sl + 1) + j := by ring
  have e3 : i * (sl + 1) + j + (sl + 1) + 1 = (i + 1) * (sl + 1) + (j + 1) := by ring
  refine ⟨sphereVerts_get r (by omega) (by omega), ?_, ?_, ?_⟩
  · rw [e1]; exact sphereVerts_get r (by omega) (by omega)
  · rw [e2]; exact sphereVerts_get r (by omega) (by omega)
  · rw [e3]; exact sphereVerts_get r (by omega) (by omega)

end Verif
