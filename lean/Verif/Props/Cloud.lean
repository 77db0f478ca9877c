import Verif.Spec.Cloud
import Mathlib.Data.List.Perm.Subperm
/-! # C79: parts of a point cloud -/

namespace Verif

variable {K C : Type} [LinearOrder K]

theorem foldl_min_lt (xs : List K) (x v : K) :
    xs.foldl min x < v ↔ ∃ u ∈ x :: xs, u < v := by
  induction xs generalizing x with
  | nil => simp
  | cons y ys ih =>
    rw [List.foldl_cons, ih]
    simp [min_lt_iff, or_assoc]

theorem lt_foldl_max (xs : List K) (x v : K) :
    v < xs.foldl max x ↔ ∃ u ∈ x :: xs, v < u := by
  induction xs generalizing x with
  | nil => simp
  | cons y ys ih =>
    rw [List.foldl_cons, ih]
    simp [lt_max_iff, or_assoc]

/-- The points of a direction that are kept: between the bounds given, and where one is not given, not
at the end. -/
def KeptIn (b : Option K × Option K) (xs : List K) (v : K) : Prop :=
  Between b v ∧ (b.1 = none → ∃ u ∈ xs, u < v) ∧ (b.2 = none → ∃ u ∈ xs, v < u)

theorem axisBounds_iff {b : Option K × Option K} {xs : List K} {r : K × K}
    (h : axisBounds b.1 b.2 xs = .ok r) (v : K) : (r.1 < v ∧ v < r.2) ↔ KeptIn b xs v := by
  obtain ⟨lo, hi⟩ := b
  have hmin : ∀ a, colMin xs = .ok a → (a < v ↔ ∃ u ∈ xs, u < v) := by
    intro a ha
    cases xs with
    | nil => cases ha
    | cons x xs =>
      simp only [colMin, Except.ok.injEq] at ha
      rw [← ha, foldl_min_lt]
  have hmax : ∀ a, colMax xs = .ok a → (v < a ↔ ∃ u ∈ xs, v < u) := by
    intro a ha
    cases xs with
    | nil => cases ha
    | cons x xs =>
      simp only [colMax, Except.ok.injEq] at ha
      rw [← ha, lt_foldl_max]
  simp only [axisBounds] at h
  cases lo with
  | some a =>
    cases hi with
    | some c =>
      simp only [bind, Except.bind, pure, Except.pure, Except.ok.injEq] at h
      subst h
      simp [KeptIn, Between]
    | none =>
      simp only [bind, Except.bind, pure, Except.pure] at h
      cases hm : colMax xs with
      | error e => rw [hm] at h; cases h
      | ok c =>
        rw [hm] at h
        simp only [Except.ok.injEq] at h
        subst h
        simp [KeptIn, Between, hmax c hm]
  | none =>
    cases hm : colMin xs with
    | error e => rw [hm] at h; cases h
    | ok a =>
      rw [hm] at h
      cases hi with
      | some c =>
        simp only [bind, Except.bind, pure, Except.pure, Except.ok.injEq] at h
        subst h
        simp [KeptIn, Between, hmin a hm, and_comm]
      | none =>
        simp only [bind, Except.bind, pure, Except.pure] at h
        cases hx : colMax xs with
        | error e => rw [hx] at h; cases h
        | ok c =>
          rw [hx] at h
          simp only [Except.ok.injEq] at h
          subst h
          simp [KeptIn, Between, hmin a hm, hmax c hx]

theorem axisBounds_ok (b : Option K × Option K) (xs : List K)
    (h : xs ≠ [] ∨ (b.1.isSome ∧ b.2.isSome)) : ∃ r, axisBounds b.1 b.2 xs = .ok r := by
  obtain ⟨lo, hi⟩ := b
  cases xs with
  | nil =>
    rcases h with h | ⟨h1, h2⟩
    · exact absurd rfl h
    · cases lo <;> cases hi <;> simp at h1 h2
      exact ⟨_, rfl⟩
  | cons x xs => cases lo <;> cases hi <;> exact ⟨_, rfl⟩

theorem masked {α β : Type} (f : α → Bool) : ∀ (ps : List α) (cs : List β), cs.length = ps.length →
    (((ps.zip (ps.map f)).filter (·.2)).map (·.1)) = ps.filter f ∧
    (((ps.zip (ps.map f)).filter (·.2)).map (·.1)).zip (((cs.zip (ps.map f)).filter (·.2)).map (·.1)) =
      (ps.zip cs).filter (fun pc => f pc.1) ∧
    (((cs.zip (ps.map f)).filter (·.2)).map (·.1)).length = (ps.filter f).length := by
  intro ps
  induction ps with
  | nil =>
    intro cs h
    obtain rfl : cs = [] := List.length_eq_zero_iff.1 h
    exact ⟨rfl, rfl, rfl⟩
  | cons p ps ih =>
    intro cs h
    cases cs with
    | nil => simp at h
    | cons c cs =>
      obtain ⟨h1, h2, h3⟩ := ih cs (by simpa using h)
      by_cases hf : f p = true
      · refine ⟨?_, ?_, ?_⟩
        · simpa [hf] using h1
        · simpa [hf] using h2
        · simpa [hf] using h3
      · refine ⟨?_, ?_, ?_⟩
        · simpa [hf] using h1
        · simpa [hf] using h2
        · simpa [hf] using h3

/-- A point that is kept. -/
def Kept (x y z : Option K × Option K) (points : List (CloudPt K)) (p : CloudPt K) : Prop :=
  KeptIn x (points.map (·.1)) p.1 ∧ KeptIn y (points.map (·.2.1)) p.2.1 ∧
    KeptIn z (points.map (·.2.2)) p.2.2

open Classical in
/-- C79. What a crop gives, whatever bounds are given: the points that are kept, with their colours and
in order. -/
theorem crop_form (x y z : Option K × Option K) (points : List (CloudPt K)) (colors : List C)
    (hl : colors.length = points.length) (h : points ≠ [] ∨ Closed6 x y z) :
    ∃ ps cs, cloudCrop x y z points colors = .ok (ps, cs) ∧ ps.length = cs.length ∧
      ps.zip cs = (points.zip colors).filter (fun pc => decide (Kept x y z points pc.1)) := by
  obtain ⟨bx, hx⟩ := axisBounds_ok x (points.map (·.1)) (by
    rcases h with h | h
    · left; simpa using h
    · right; exact ⟨h.1, h.2.1⟩)
  obtain ⟨bY, hy⟩ := axisBounds_ok y (points.map (·.2.1)) (by
    rcases h with h | h
    · left; simpa using h
    · right; exact ⟨h.2.2.1, h.2.2.2.1⟩)
  obtain ⟨bz, hz⟩ := axisBounds_ok z (points.map (·.2.2)) (by
    rcases h with h | h
    · left; simpa using h
    · right; exact h.2.2.2.2)
  let inside : CloudPt K → Bool := fun p =>
    (bx.1 < p.1 && p.1 < bx.2) && (bY.1 < p.2.1 && p.2.1 < bY.2) && (bz.1 < p.2.2 && p.2.2 < bz.2)
  obtain ⟨m1, m2, m3⟩ := masked inside points colors hl
  refine ⟨((points.zip (points.map inside)).filter (·.2)).map (·.1),
    ((colors.zip (points.map inside)).filter (·.2)).map (·.1), ?_, ?_, ?_⟩
  · simp only [cloudCrop, hx, hy, hz, bind, Except.bind, pure, Except.pure, hl, if_true]
    rfl
  · rw [m3, m1]
  · rw [m2]
    apply List.filter_congr
    intro pc _
    have : inside pc.1 = true ↔ Kept x y z points pc.1 := by
      unfold Kept
      rw [← axisBounds_iff hx, ← axisBounds_iff hy, ← axisBounds_iff hz]
      simp only [inside, Bool.and_eq_true, decide_eq_true_eq]
      tauto
    rw [Bool.eq_iff_iff, this, decide_eq_true_iff]

/-- C79. When all bounds are given, a crop keeps exactly the points inside, with their colours and in
order. -/
theorem crop_partial (x y z : Option K × Option K) (points : List (CloudPt K)) (colors : List C)
    (hl : colors.length = points.length) (h : Closed6 x y z) :
    ∃ ps cs, cloudCrop x y z points colors = .ok (ps, cs) ∧ ps.length = cs.length ∧
      ps.zip cs = (points.zip colors).filter (fun pc => decide (InBox x y z pc.1)) := by
  obtain ⟨ps, cs, h1, h2, h3⟩ := crop_form x y z points colors hl (.inr h)
  refine ⟨ps, cs, h1, h2, h3.trans (List.filter_congr fun pc _ => ?_)⟩
  obtain ⟨a1, a2, a3, a4, a5, a6⟩ := h
  have hk : Kept x y z points pc.1 ↔ InBox x y z pc.1 := by
    have e : ∀ (b : Option K × Option K) (xs : List K) (v : K), b.1.isSome → b.2.isSome →
        (KeptIn b xs v ↔ Between b v) := by
      intro b xs v hb1 hb2
      refine ⟨fun hk => hk.1, fun hk => ⟨hk, ?_, ?_⟩⟩
      · intro hn; rw [hn] at hb1; cases hb1
      · intro hn; rw [hn] at hb2; cases hb2
    unfold Kept InBox
    rw [e _ _ _ a1 a2, e _ _ _ a3 a4, e _ _ _ a5 a6]
  simp only [hk]

example : cloudCrop (some 0, some 10) (some 0, some 10) (some 0, some 10)
    [((1 : Int), 2, 3), (0, 5, 5), (9, 9, 9)] ["red", "green", "blue"] =
    .ok ([(1, 2, 3), (9, 9, 9)], ["red", "blue"]) := by decide +kernel

/-- C79. Without bounds every crop of a cloud loses points, and that of an empty cloud raises. -/
theorem crop_fails (points : List (CloudPt K)) (colors : List C) (hl : colors.length = points.length) :
    (points ≠ [] → ∃ ps cs, cloudCrop (none, none) (none, none) (none, none) points colors = .ok (ps, cs)
      ∧ ps.length < points.length) ∧
    (points = [] → cloudCrop (none, none) (none, none) (none, none) points colors =
      .error .valueError) := by
  refine ⟨fun hne => ?_, ?_⟩
  · obtain ⟨ps, cs, h1, h2, h3⟩ := crop_form (none, none) (none, none) (none, none) points colors hl
      (.inl hne)
    refine ⟨ps, cs, h1, ?_⟩
    have e1 : (ps.zip cs).length = ps.length := by simp [h2]
    have e2 : (points.zip colors).length = points.length := by simp [hl]
    rw [← e1, ← e2, h3]
    rw [List.length_filter_lt_length_iff_exists]
    -- the point with the smallest first coordinate
    obtain ⟨p, hp, hmin⟩ : ∃ p ∈ points, ∀ q ∈ points, p.1 ≤ q.1 := by
      clear h1 h2 h3 e1 e2 hl ps cs
      induction points with
      | nil => exact absurd rfl hne
      | cons a as ih =>
        by_cases has : as = []
        · subst has; exact ⟨a, by simp, by simp⟩
        · obtain ⟨p, hp, hm⟩ := ih has
          rcases le_total a.1 p.1 with hle | hle
          · exact ⟨a, by simp, fun q hq => by
              rcases List.mem_cons.1 hq with rfl | hq
              · exact le_refl _
              · exact hle.trans (hm q hq)⟩
          · exact ⟨p, by simp [hp], fun q hq => by
              rcases List.mem_cons.1 hq with rfl | hq
              · exact hle
              · exact hm q hq⟩
    obtain ⟨i, hi, rfl⟩ := List.getElem_of_mem hp
    refine ⟨(points[i], colors[i]'(by omega)), ?_, ?_⟩
    · rw [List.mem_iff_getElem]
      exact ⟨i, by simp; omega, by simp⟩
    · simp only [decide_eq_true_eq]
      rintro ⟨⟨-, hlo, -⟩, -⟩
      obtain ⟨u, hu, hlt⟩ := hlo rfl
      obtain ⟨q, hq, rfl⟩ := List.mem_map.1 hu
      exact absurd (hmin q hq) (not_le.2 hlt)
  · rintro rfl
    rfl

/-- The crop of the example itself gives bounds in x and z only: the point with the greatest y is lost
although it is in the box. -/
example : cloudCrop (some (-1), some 1) (none, none) (some (-1), some 1)
    [((0 : Int), 5, 0), (0, 6, 0), (0, 7, 0)] ["a", "b", "c"] = .ok ([(0, 6, 0)], ["b"]) ∧
    InBox (some (-1), some 1) (none, none) (some (-1), some 1) ((0 : Int), 7, 0) := by decide +kernel

theorem choose_all {α : Type} (l : List α) {idx : List Nat} (h : ∀ i ∈ idx, i < l.length) :
    ∃ ys, idx.mapM (fun i => l[i]?) = some ys ∧ ys.map some = idx.map (fun i => l[i]?) := by
  induction idx with
  | nil => exact ⟨[], rfl, rfl⟩
  | cons i idx ih =>
    obtain ⟨ys, h1, h2⟩ := ih (fun j hj => h j (by simp [hj]))
    have hi := h i (by simp)
    refine ⟨l[i] :: ys, ?_, ?_⟩
    · simp [List.mapM_cons, h1, List.getElem?_eq_getElem hi]
    · simp [h2, List.getElem?_eq_getElem hi]

/-- C79. Downsampling keeps points with their colours, none twice, and as many as wished if there are
more, for every choice of the random generator. -/
theorem downsample_keeps (choice : Nat → Nat → List Nat) (hc : IsChoice choice) (wished : Option Nat)
    (points : List (CloudPt K)) (colors : List C) (hl : colors.length = points.length) :
    ∃ ps cs, cloudDownsample choice (wished.map Int.ofNat) points colors = .ok (ps, cs) ∧
      ps.length = cs.length ∧ (ps.zip cs).Subperm (points.zip colors) ∧
      ps.length = min points.length (wished.getD points.length) := by
  cases wished with
  | none => exact ⟨points, colors, rfl, hl.symm, List.Subperm.refl _, by simp⟩
  | some n =>
    simp only [cloudDownsample, Option.map_some, Option.getD_some]
    by_cases hn : points.length ≤ n
    · rw [if_pos (by simpa using hn)]
      exact ⟨points, colors, rfl, hl.symm, List.Subperm.refl _, by omega⟩
    · rw [if_neg (by simpa using hn), if_neg (by simp)]
      have ht : (Int.ofNat n).toNat = n := rfl
      rw [ht]
      obtain ⟨c1, c2, c3⟩ := hc points.length n (by omega)
      obtain ⟨ps, p1, p2⟩ := choose_all points c3
      obtain ⟨cs, q1, q2⟩ := choose_all colors (fun i hi => by rw [hl]; exact c3 i hi)
      have l1 : ps.length = n := by have := congrArg List.length p2; simpa [c1] using this
      have l2 : cs.length = n := by have := congrArg List.length q2; simpa [c1] using this
      refine ⟨ps, cs, by simp only [p1, q1], by omega, ?_, by omega⟩
      -- all pairs, by index
      have hz : (ps.zip cs).map some = (choice points.length n).map (fun i => (points.zip colors)[i]?) := by
        apply List.ext_getElem (by simp [l1, l2, c1])
        intro k hk1 hk2
        simp only [List.length_map, List.length_zip] at hk1 hk2
        have g1 : some (ps[k]'(by omega)) = points[(choice points.length n)[k]'(by omega)]? := by
          have := congrArg (fun l => l[k]?) p2
          simp only [List.getElem?_map] at this
          rw [List.getElem?_eq_getElem (by omega), List.getElem?_eq_getElem (by omega)] at this
          simpa using this
        have g2 : some (cs[k]'(by omega)) = colors[(choice points.length n)[k]'(by omega)]? := by
          have := congrArg (fun l => l[k]?) q2
          simp only [List.getElem?_map] at this
          rw [List.getElem?_eq_getElem (by omega), List.getElem?_eq_getElem (by omega)] at this
          simpa using this
        simp only [List.getElem_map, List.getElem_zip]
        exact (List.getElem?_zip_eq_some (z := (ps[k]'(by omega), cs[k]'(by omega))).2
          ⟨g1.symm, g2.symm⟩).symm
      have hsub : (choice points.length n).Subperm (List.range (points.zip colors).length) := by
        apply List.subperm_of_subset c2
        intro i hi
        rw [List.mem_range, List.length_zip]
        have := c3 i hi
        omega
      have hall : (List.range (points.zip colors).length).map (fun i => (points.zip colors)[i]?) =
          (points.zip colors).map some := by
        apply List.ext_getElem (by simp)
        intro k hk1 hk2
        simp only [List.length_map, List.length_range] at hk1
        simp only [List.getElem_map, List.getElem_range]
        exact List.getElem?_eq_getElem hk1
      obtain ⟨w, w1, w2⟩ := hsub
      have m1 := w1.map (fun i => (points.zip colors)[i]?)
      have m2 := w2.map (fun i => (points.zip colors)[i]?)
      rw [hall] at m2
      rw [← hz] at m1
      have n1 := m1.filterMap id
      have n2 := m2.filterMap id
      simp only [List.filterMap_map, Function.comp_def, id_eq, List.filterMap_some] at n1 n2
      exact ⟨_, n1, n2⟩

example : IsChoice (fun _ k => List.range k) :=
  fun n k h => ⟨by simp, List.nodup_range, fun i hi => by simp at hi; omega⟩

end Verif
