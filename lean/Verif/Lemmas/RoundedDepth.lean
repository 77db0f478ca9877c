import Mathlib.Tactic.Linarith
import Mathlib.Tactic.Ring
import Mathlib.Tactic.Positivity
import Mathlib.Tactic.NormNum
import Mathlib.Tactic.FieldSimp
import Mathlib.Algebra.BigOperators.Fin
import Mathlib.Algebra.Order.BigOperators.Group.Finset
import Verif.Lemmas.Visual
import Verif.Spec.RoundedDepth
/-
How far rounded sums and quotients are off.
-/

namespace Verif

variable {fl : ℚ → ℚ} {u : ℚ}

/-- `y` is `x`, off by at most what `k` roundings do to a number of size `X`. -/
structure RNear (u : ℚ) (k : Nat) (x X y : ℚ) : Prop where
  size : |x| ≤ X
  off : |y - x| ≤ ((1 + u) ^ k - 1) * X

theorem RNear.exact (u x : ℚ) : RNear u 0 x |x| x := ⟨le_refl _, by simp⟩

theorem RNear.nonneg {k : Nat} {x X y : ℚ} (h : RNear u k x X y) : 0 ≤ X := (abs_nonneg _).trans h.size

theorem RNear.mono (hu : 0 ≤ u) {k l : Nat} {x X y : ℚ} (h : RNear u k x X y) (hkl : k ≤ l) : RNear u l x X y :=
  ⟨h.size, h.off.trans (mul_le_mul_of_nonneg_right
    (sub_le_sub_right (pow_le_pow_right₀ (by linarith) hkl) 1) h.nonneg)⟩

theorem RNear.abs_le {k : Nat} {x X y : ℚ} (h : RNear u k x X y) : |y| ≤ (1 + u) ^ k * X := by
  have h1 := h.size
  have h2 := h.off
  have h3 : |y| ≤ |y - x| + |x| := by simpa using abs_add_le (y - x) x
  linarith

theorem RNear.round (hfl : ∀ x, |fl x - x| ≤ u * |x|) (hu : 0 ≤ u) {k : Nat} {x X y : ℚ} (h : RNear u k x X y) :
    RNear u (k + 1) x X (fl y) := by
  refine ⟨h.size, ?_⟩
  have h1 := hfl y
  have h2 := mul_le_mul_of_nonneg_left h.abs_le hu
  have h3 : |fl y - x| ≤ |fl y - y| + |y - x| := by
    simpa using abs_add_le (fl y - y) (y - x)
  have h4 := h.off
  have e : ((1 + u) ^ (k + 1) - 1) * X = u * ((1 + u) ^ k * X) + ((1 + u) ^ k - 1) * X := by ring
  linarith

theorem RNear.add {k : Nat} {x X y z Z w : ℚ} (h : RNear u k x X y) (h' : RNear u k z Z w) :
    RNear u k (x + z) (X + Z) (y + w) := by
  refine ⟨(abs_add_le _ _).trans (add_le_add h.size h'.size), ?_⟩
  have : y + w - (x + z) = (y - x) + (w - z) := by ring
  rw [this, mul_add]
  exact (abs_add_le _ _).trans (add_le_add h.off h'.off)

theorem RNear.mul {k : Nat} {x X y : ℚ} (h : RNear u k x X y) (z : ℚ) : RNear u k (x * z) (X * |z|) (y * z) := by
  refine ⟨by rw [abs_mul]; exact mul_le_mul_of_nonneg_right h.size (abs_nonneg _), ?_⟩
  rw [← sub_mul, abs_mul, ← mul_assoc]
  exact mul_le_mul_of_nonneg_right h.off (abs_nonneg _)

theorem AddTree.near {ι : Type} (hfl : ∀ x, |fl x - x| ≤ u * |x|) (hu : 0 ≤ u) {k : Nat} {f F g : ι → ℚ}
    (h : ∀ i, RNear u k (f i) (F i) (g i)) (t : AddTree ι) :
    RNear u (k + t.height) (t.leaves.map f).sum (t.leaves.map F).sum (t.eval fl g) := by
  induction t with
  | leaf i => simpa [AddTree.leaves, AddTree.height, AddTree.eval] using h i
  | add a b iha ihb =>
    simp only [AddTree.leaves, AddTree.height, AddTree.eval, List.map_append, List.sum_append, ← Nat.add_assoc]
    exact ((iha.mono hu (by omega)).add (ihb.mono hu (by omega))).round hfl hu

theorem AddTree.height_lt {ι : Type} (t : AddTree ι) : t.height < t.leaves.length := by
  induction t with
  | leaf i => simp [AddTree.leaves, AddTree.height]
  | add a b iha ihb => simp only [AddTree.leaves, AddTree.height, List.length_append]; omega

/-- A product of a row and a column. -/
theorem DotWay.near (hfl : ∀ x, |fl x - x| ≤ u * |x|) (hu : 0 ≤ u) {way : DotWay} (hw : way.Sums) {k : Nat}
    {a A a' : Fin 4 → ℚ} (h : ∀ i, RNear u k (a i) (A i) (a' i)) (b : Fin 4 → ℚ) :
    RNear u (k + 4) (∑ i, a i * b i) (∑ i, A i * |b i|) (way.dot fl a' b) := by
  have h1 := AddTree.near hfl hu (k := k + 1) (f := fun i => a i * b i) (F := fun i => A i * |b i|)
    (g := fun i => if way.fused i then a' i * b i else fl (a' i * b i)) (fun i => by
      split
      · exact ((h i).mul _).mono hu (Nat.le_succ _)
      · exact ((h i).mul _).round hfl hu) way.tree
  have h2 := way.tree.height_lt
  rw [hw.length_eq] at h2
  rw [(hw.map _).sum_eq, (hw.map _).sum_eq] at h1
  rw [Fin.sum_univ_four, Fin.sum_univ_four]
  have h3 := h1.mono hu (l := k + 4) (by simp at h2; omega)
  simpa [DotWay.dot, add_assoc] using h3

/-- A vertex in clip coordinates. -/
theorem RScene.clip_near (hfl : ∀ x, |fl x - x| ≤ u * |x|) (hu : 0 ≤ u) {way : RenderWay} (hw : way.Sums)
    (s : RScene) (n : Nat) (c : Fin 4) :
    RNear u 12 (s.clip n c) (s.clipSize n c) ((way.vertex n c).dot fl
      (mulRounded fl way.all (mulRounded fl way.projView s.proj s.view) s.model c) (s.vec4 n)) := by
  have h1 : ∀ i j, RNear u 4 ((s.proj * s.view) i j) ((s.proj.map (|·|) * s.view.map (|·|)) i j)
      (mulRounded fl way.projView s.proj s.view i j) := fun i j => by
    have := DotWay.near hfl hu (hw.projView i j) (fun k => RNear.exact u (s.proj i k)) (fun k => s.view k j)
    simpa [Matrix.mul_apply, mulRounded] using this
  have h2 : ∀ i j, RNear u 8 ((s.proj * s.view * s.model) i j)
      ((s.proj.map (|·|) * s.view.map (|·|) * s.model.map (|·|)) i j)
      (mulRounded fl way.all (mulRounded fl way.projView s.proj s.view) s.model i j) := fun i j => by
    have := DotWay.near hfl hu (hw.all i j) (fun k => h1 i k) (fun k => s.model k j)
    rw [Matrix.mul_apply, Matrix.mul_apply (M := s.proj.map (|·|) * s.view.map (|·|))]
    exact this
  exact DotWay.near hfl hu (hw.vertex n c) (fun k => h2 c k) (s.vec4 n)

theorem pow_mul_le (hu : 0 ≤ u) (k : Nat) : (1 + u) ^ k * (1 - k * u) ≤ 1 := by
  induction k with
  | zero => simp
  | succ k ih =>
    have h : 0 ≤ (1 + u) ^ k := by positivity
    have h2 : 0 ≤ (1 + u) ^ k * (((k : ℚ) + 1) * u ^ 2) := by positivity
    have e : (1 + u) ^ (k + 1) * (1 - ((k + 1 : ℕ) : ℚ) * u) =
        (1 + u) ^ k * (1 - k * u) - (1 + u) ^ k * (((k : ℚ) + 1) * u ^ 2) := by push_cast; ring
    rw [e]
    linarith

theorem pow_sub_le (hu : 0 ≤ u) {k : Nat} (hk : (k : ℚ) * u ≤ 1 / 20) : (1 + u) ^ k - 1 ≤ 20 / 19 * (k * u) := by
  have h := pow_mul_le hu k
  have h1 : 0 ≤ (k : ℚ) * u := by positivity
  have h3 : (0 : ℚ) < 1 - k * u := by linarith
  have h4 : (1 + u) ^ k ≤ 1 / (1 - k * u) := by rw [le_div_iff₀ h3]; exact h
  have h5 : 1 / (1 - (k : ℚ) * u) - 1 ≤ 20 / 19 * (k * u) := by
    rw [div_sub_one h3.ne', div_le_iff₀ h3]
    nlinarith
  linarith

/-- The quotient of two numbers that are off by a part `g` of their sizes. -/
theorem quotient_near {z w z' w' A B K g : ℚ} (hg : 0 ≤ g) (hw : w ≠ 0) (hd : |z / w| ≤ 1) (hA : A ≤ K * |w|)
    (hB : B ≤ K * |w|) (hz' : |z' - z| ≤ g * A) (hw' : |w' - w| ≤ g * B) (hK : 2 * (g * K) ≤ 1) :
    |z' / w' - z / w| ≤ 4 * (g * K) := by
  have hw0 : 0 < |w| := abs_pos.mpr hw
  have h1 : |z' - z| ≤ g * K * |w| := by nlinarith [mul_le_mul_of_nonneg_left hA hg]
  have h2 : |w' - w| ≤ g * K * |w| := by nlinarith [mul_le_mul_of_nonneg_left hB hg]
  have h3 : |w| / 2 ≤ |w'| := by
    have := abs_sub_abs_le_abs_sub w w'
    rw [abs_sub_comm] at this
    nlinarith
  have hw'0 : 0 < |w'| := by linarith
  have hw1 : w' ≠ 0 := abs_pos.mp hw'0
  have hz : |z| ≤ |w| := by
    rw [abs_div, div_le_one hw0] at hd
    exact hd
  have e : z' / w' - z / w = ((z' - z) * w - z * (w' - w)) / (w' * w) := by
    field_simp
    ring
  rw [e, abs_div, abs_mul w' w, div_le_iff₀ (by positivity)]
  have h4 : |(z' - z) * w - z * (w' - w)| ≤ |z' - z| * |w| + |z| * |w' - w| := by
    rw [← abs_mul, ← abs_mul]; exact abs_sub _ _
  have hgK : 0 ≤ g * K := by
    have : 0 ≤ g * K * |w| := (abs_nonneg _).trans h1
    by_contra hc
    nlinarith
  have h5 : |z' - z| * |w| ≤ g * K * |w| * |w| := mul_le_mul_of_nonneg_right h1 hw0.le
  have h6 : |z| * |w' - w| ≤ |w| * (g * K * |w|) := mul_le_mul hz h2 (abs_nonneg _) hw0.le
  have h7 : g * K * |w| * (|w| / 2) ≤ g * K * |w| * |w'| := mul_le_mul_of_nonneg_left h3 (by positivity)
  nlinarith

theorem RScene.InView.one_le {s : RScene} {K : ℚ} {n : Nat} (h : s.InView K n)
    (hs : |s.clip n 3| ≤ s.clipSize n 3) : 1 ≤ K := by
  have h0 := abs_pos.mpr h.front
  have := h.w
  by_contra hc
  nlinarith

/-- The depth of a vertex. -/
theorem RScene.depth_near (hfl : ∀ x, |fl x - x| ≤ u * |x|) (hu : 0 ≤ u) {way : RenderWay} (hw : way.Sums)
    (s : RScene) {K : ℚ} (hK : 1000 * (u * K) ≤ 1) {n : Nat} (hn : s.InView K n) :
    1 ≤ K ∧ |s.depthRounded fl way n - s.depth n| ≤ 55 * (u * K) := by
  have h3 := s.clip_near hfl hu hw n 3
  have h2 := s.clip_near hfl hu hw n 2
  have h1K := hn.one_le h3.size
  have huK : u ≤ u * K := by nlinarith
  have hg : (1 + u) ^ 12 - 1 ≤ 13 * u := by
    have := pow_sub_le hu (k := 12) (by push_cast; linarith)
    push_cast at this
    linarith
  have hg0 : 0 ≤ (1 + u) ^ 12 - 1 := by
    have := one_le_pow₀ (n := 12) (show (1 : ℚ) ≤ 1 + u by linarith)
    linarith
  have hgK : ((1 + u) ^ 12 - 1) * K ≤ 13 * (u * K) := by nlinarith
  have hq := quotient_near hg0 hn.front hn.depth hn.z hn.w h2.off h3.off (by linarith)
  refine ⟨h1K, ?_⟩
  have hd : |s.depth n| ≤ 1 := hn.depth
  unfold RScene.depthRounded
  dsimp only
  generalize (way.vertex n 2).dot fl _ _ / (way.vertex n 3).dot fl _ _ = q at hq ⊢
  change |q - s.depth n| ≤ _ at hq
  have h5 := hfl q
  have h6 : |fl q - s.depth n| ≤ |fl q - q| + |q - s.depth n| := by
    simpa using abs_add_le (fl q - q) (q - s.depth n)
  have h7 : |q| ≤ |q - s.depth n| + |s.depth n| := by simpa using abs_add_le (q - s.depth n) (s.depth n)
  have h8 : |q| ≤ 3 := by linarith
  have h9 : u * |q| ≤ u * 3 := mul_le_mul_of_nonneg_left h8 hu
  linarith

/-- Sorting by keys that are near minus the depth. -/
theorem farther_first_by {depths keys : List ℚ} {gap : ℚ} {idx : List Nat} (c : ℚ) (hl : keys.length = depths.length)
    (h : ∀ (i : Nat) a x, depths[i]? = some a → keys[i]? = some x → |x - (c - a)| ≤ gap / 2)
    (hs : IsArgsort keys idx) : FartherFirstBy gap depths idx := by
  intro k l i j a b hi hj ha hb hlt
  obtain ⟨hp, hsorted⟩ := hs
  have hbd := perm_range_lt hp
  obtain ⟨x, hx⟩ : ∃ x, keys[i]? = some x :=
    ⟨_, List.getElem?_eq_getElem (by rw [hl]; exact (List.getElem?_eq_some_iff.1 ha).1)⟩
  obtain ⟨y, hy⟩ : ∃ y, keys[j]? = some y :=
    ⟨_, List.getElem?_eq_getElem (by rw [hl]; exact (List.getElem?_eq_some_iff.1 hb).1)⟩
  have h1 := abs_le.mp (h i a x ha hx)
  have h2 := abs_le.mp (h j b y hb hy)
  have hxy : x < y := by linarith
  by_contra hkl
  have hne : k ≠ l := by
    rintro rfl
    rw [hi] at hj; cases hj
    rw [hx] at hy; cases hy
    exact lt_irrefl _ hxy
  have hlk : l < k := by omega
  have e1 : (permute idx keys)[k]? = some x := by rw [permute_getElem? hbd, hi]; simp [hx]
  have e2 : (permute idx keys)[l]? = some y := by rw [permute_getElem? hbd, hj]; simp [hy]
  have := List.pairwise_iff_getElem.1 hsorted l k (List.getElem?_eq_some_iff.1 e2).1
    (List.getElem?_eq_some_iff.1 e1).1 hlk
  rw [(List.getElem?_eq_some_iff.1 e1).2, (List.getElem?_eq_some_iff.1 e2).2] at this
  linarith

theorem sum_near {e : List Nat} {f g : Nat → ℚ} {c : ℚ} (h : ∀ n ∈ e, |f n - g n| ≤ c) :
    |(e.map f).sum - (e.map g).sum| ≤ e.length * c := by
  induction e with
  | nil => simp
  | cons n e ih =>
    have h1 := ih (fun m hm => h m (List.mem_cons_of_mem _ hm))
    have h2 := h n List.mem_cons_self
    have h3 := abs_add_le (f n - g n) ((e.map f).sum - (e.map g).sum)
    have e' : ((n :: e).map f).sum - ((n :: e).map g).sum = (f n - g n) + ((e.map f).sum - (e.map g).sum) := by
      simp only [List.map_cons, List.sum_cons]; ring
    rw [e']
    push_cast [List.length_cons]
    linarith

theorem sum_abs_le {e : List Nat} {f : Nat → ℚ} {c : ℚ} (h : ∀ n ∈ e, |f n| ≤ c) :
    (e.map fun n => |f n|).sum ≤ e.length * c := by
  induction e with
  | nil => simp
  | cons n e ih =>
    have h1 := ih (fun m hm => h m (List.mem_cons_of_mem _ hm))
    have h2 := h n List.mem_cons_self
    simp only [List.map_cons, List.sum_cons, List.length_cons]
    push_cast
    linarith

theorem range_getD (xs : List ℚ) : (List.range xs.length).map (fun i => xs.getD i 0) = xs := by
  apply List.ext_getElem?
  intro i
  simp only [List.getElem?_map, List.getElem?_range']
  by_cases h : i < xs.length
  · simp [h]
  · simp [h]

/-- The mean of the depths of an element. -/
theorem RScene.mean_near (hfl : ∀ x, |fl x - x| ≤ u * |x|) (hu : 0 ≤ u) {way : RenderWay} (hw : way.Sums)
    (s : RScene) {K : ℚ} (hK : 1000 * (u * K) ≤ 1) {e : List Nat} (he : e ≠ []) (hin : ∀ n ∈ e, s.InView K n)
    {t : AddTree Nat} (ht : t.leaves.Perm (List.range e.length)) {H : Nat} (hH : t.height ≤ H)
    (hu' : 20 * ((H + 1) * u) ≤ 1) :
    |fl (t.eval fl (fun i => (e.map (s.depthRounded fl way)).getD i 0) / e.length) - s.meanDepth e| ≤
      55 * (u * K) + 3 * ((H + 1) * u) := by
  have hl : (0 : ℚ) < e.length := by exact_mod_cast List.length_pos_iff.mpr he
  have hd : ∀ n ∈ e, |s.depthRounded fl way n - s.depth n| ≤ 55 * (u * K) :=
    fun n hn => (s.depth_near hfl hu hw hK (hin n hn)).2
  have ha : ∀ n ∈ e, |s.depthRounded fl way n| ≤ 5 / 4 := fun n hn => by
    have h1 := hd n hn
    have h2 := (hin n hn).depth
    have h3 : |s.depthRounded fl way n| ≤ |s.depthRounded fl way n - s.depth n| + |s.depth n| := by
      simpa using abs_add_le (s.depthRounded fl way n - s.depth n) (s.depth n)
    linarith
  have h1 := AddTree.near hfl hu (k := 0) (fun i => RNear.exact u ((e.map (s.depthRounded fl way)).getD i 0)) t
  rw [(ht.map _).sum_eq, (ht.map _).sum_eq] at h1
  have hlen : e.length = (e.map (s.depthRounded fl way)).length := by simp
  have e1 : (List.range e.length).map (fun i => (e.map (s.depthRounded fl way)).getD i 0) =
      e.map (s.depthRounded fl way) := by
    conv_lhs => rw [hlen]
    exact range_getD _
  have e2 : (List.range e.length).map (fun i => |(e.map (s.depthRounded fl way)).getD i 0|) =
      e.map (fun n => |s.depthRounded fl way n|) := by
    have := congrArg (List.map (fun x : ℚ => |x|)) e1
    simpa [List.map_map, Function.comp_def] using this
  rw [e1, e2] at h1
  have h2 := ((h1.mul (1 / (e.length : ℚ))).round hfl hu).mono hu (l := H + 1) (by omega)
  have h3 := h2.off
  have h4 : (e.map fun n => |s.depthRounded fl way n|).sum * |1 / (e.length : ℚ)| ≤ 5 / 4 := by
    have := sum_abs_le ha
    rw [abs_of_pos (by positivity), mul_one_div, div_le_iff₀ hl]
    linarith
  have h5 : |(e.map (s.depthRounded fl way)).sum / e.length - s.meanDepth e| ≤ 55 * (u * K) := by
    unfold RScene.meanDepth
    rw [← sub_div, abs_div, abs_of_pos hl, div_le_iff₀ hl]
    have := sum_near hd
    linarith
  have h6 := pow_sub_le hu (k := H + 1) (by push_cast; linarith)
  push_cast at h6
  have h7 : 0 ≤ (1 + u) ^ (H + 1) - 1 := by
    have := one_le_pow₀ (n := H + 1) (show (1 : ℚ) ≤ 1 + u by linarith)
    linarith
  have h8 := mul_le_mul_of_nonneg_left h4 h7
  simp only [mul_one_div] at h3
  have h9 : ∀ a b c : ℚ, |a - c| ≤ |a - b| + |b - c| := fun a b c => by simpa using abs_add_le (a - b) (b - c)
  have h10 := h9 (fl (t.eval fl (fun i => (e.map (s.depthRounded fl way)).getD i 0) / e.length))
    ((e.map (s.depthRounded fl way)).sum / e.length) (s.meanDepth e)
  have h11 : 0 ≤ ((H : ℚ) + 1) * u := by positivity
  linarith

theorem abs_mul_le {x y a : ℚ} (hx : |x| ≤ a) (hy : |y| ≤ 1) : |x| * |y| ≤ a := by
  have := mul_le_mul hx hy (abs_nonneg _) ((abs_nonneg _).trans hx)
  linarith

/-- The numbers of a camera: the distance of a vertex, its clip coordinates, and their sizes. -/
theorem RScene.OfCamera.numbers {s : RScene} (h : s.OfCamera) {p q a b : ℚ} (ha : 0 ≤ a) (hb : 0 ≤ b)
    (hp : s.proj = !![p, 0, 0, 0; 0, q, 0, 0; 0, 0, -a, -b; 0, 0, -1, 0]) (n : Nat) :
    s.clip n 3 = s.distance n ∧ s.clip n 2 = a * s.distance n - b ∧
    ∃ t : ℚ, t ≤ 303 / 100 ∧ |s.distance n - 5| ≤ t ∧
      s.clipSize n 3 = t + 5 ∧ s.clipSize n 2 = a * (t + 5) + b := by
  obtain ⟨-, hv, ht, ⟨hf, hf3⟩, hc⟩ := h
  have m0 := hf 0
  have m1 := hf 1
  have m2 := hf 2
  simp at m0 m1 m2
  have e1 : s.distance n = 5 - (s.model 2 0 * (s.vertex n).1 + s.model 2 1 * (s.vertex n).2.1 +
      s.model 2 2 * (s.vertex n).2.2) := by
    simp [RScene.distance, hv, Matrix.mulVec, dotProduct, Fin.sum_univ_four, Matrix.mul_apply, RScene.vec4,
      m0, m1, m2, hf3]
    ring
  refine ⟨?_, ?_, |s.model 2 0| * |(s.vertex n).1| + |s.model 2 1| * |(s.vertex n).2.1| +
    |s.model 2 2| * |(s.vertex n).2.2|, ?_, ?_, ?_, ?_⟩
  · rw [e1]
    simp [RScene.clip, hp, hv, Matrix.mulVec, dotProduct, Fin.sum_univ_four, Matrix.mul_apply, RScene.vec4,
      m0, m1, m2, hf3]
    ring
  · rw [e1]
    simp [RScene.clip, hp, hv, Matrix.mulVec, dotProduct, Fin.sum_univ_four, Matrix.mul_apply, RScene.vec4,
      m0, m1, m2, hf3]
    ring
  · have h0 := abs_mul_le (ht 2 0) (hc n).1
    have h1 := abs_mul_le (ht 2 1) (hc n).2.1
    have h2 := abs_mul_le (ht 2 2) (hc n).2.2
    simp at h0 h1 h2
    linarith
  · rw [e1, ← abs_mul, ← abs_mul, ← abs_mul]
    have h1 := abs_add_le (s.model 2 0 * (s.vertex n).1 + s.model 2 1 * (s.vertex n).2.1)
      (s.model 2 2 * (s.vertex n).2.2)
    have h2 := abs_add_le (s.model 2 0 * (s.vertex n).1) (s.model 2 1 * (s.vertex n).2.1)
    have e : ∀ x : ℚ, |5 - x - 5| = |x| := fun x => by rw [show 5 - x - 5 = -x by ring, abs_neg]
    rw [e]
    linarith
  · simp [RScene.clipSize, hp, hv, Matrix.mulVec, dotProduct, Fin.sum_univ_four, Matrix.mul_apply, RScene.vec4,
      m0, m1, m2, hf3]
  · simp [RScene.clipSize, hp, hv, Matrix.mulVec, dotProduct, Fin.sum_univ_four, Matrix.mul_apply, RScene.vec4,
      m0, m1, m2, hf3, abs_of_nonneg ha, abs_of_nonneg hb]
    ring

/-- What a camera shows is in view. -/
theorem RScene.OfCamera.inView {s : RScene} (h : s.OfCamera) (n : Nat) :
    s.InView 6 n ∧ 0 < s.distance n ∧ s.distance n ≤ 803 / 100 := by
  obtain ⟨p, q, a, b, hp, ha1, ha2, hb1, hb2⟩ := h.proj
  obtain ⟨h3, h2, t, ht, hd, hs3, hs2⟩ := h.numbers (by linarith) (by linarith) hp n
  have hd' := abs_le.mp hd
  have hpos : 0 < s.distance n := by linarith [hd'.1]
  refine ⟨⟨?_, ?_, ?_, ?_⟩, hpos, by linarith [hd'.2]⟩
  · rw [h3]; exact hpos.ne'
  · rw [RScene.depth, h3, h2, abs_le, le_div_iff₀ hpos, div_le_iff₀ hpos]
    constructor <;> nlinarith [hd'.1, hd'.2]
  · rw [h3, hs2, abs_of_pos hpos]
    nlinarith [hd'.1, hd'.2, abs_nonneg (s.distance n - 5)]
  · rw [h3, hs3, abs_of_pos hpos]
    linarith [hd'.1]

/-- Distances and depths. -/
theorem RScene.OfCamera.farther {s : RScene} (h : s.OfCamera) {u : ℚ} (hu : 0 ≤ u) {n m : Nat}
    (hnm : s.distance n + 22500 * u < s.distance m) : s.depth n + 116 * (u * 6) < s.depth m := by
  obtain ⟨p, q, a, b, hp, ha1, ha2, hb1, hb2⟩ := h.proj
  obtain ⟨hn3, hn2, -⟩ := h.numbers (by linarith) (by linarith) hp n
  obtain ⟨hm3, hm2, -⟩ := h.numbers (by linarith) (by linarith) hp m
  obtain ⟨-, hn0, hn1⟩ := h.inView n
  obtain ⟨-, hm0, hm1⟩ := h.inView m
  rw [RScene.depth, RScene.depth, hn3, hn2, hm3, hm2]
  generalize s.distance n = x at *
  generalize s.distance m = y at *
  have e : (a * y - b) / y - (a * x - b) / x = b * (y - x) / (x * y) := by
    field_simp
    ring
  have hxy : 0 < x * y := by positivity
  have hxy2 : x * y ≤ 64481 / 1000 := by nlinarith
  have : 116 * (u * 6) < b * (y - x) / (x * y) := by
    rw [lt_div_iff₀ hxy]
    nlinarith
  linarith

end Verif
