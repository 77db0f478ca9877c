import Verif.Spec.Exact
import Verif.Props.Values
import Verif.Props.Visual
import Verif.Props.Svg
import Mathlib.Tactic.LinearCombination
/-
C25, C31, C52 and C59: exactly when these properties hold, and what happens when they do not.
-/

namespace Verif

/-! ### C25 -/

/-- **C25.** A bound of 0 is the same as none, whatever the values. -/
theorem colormap_zero_bound (lut : Option String → ℚ → List ℚ) (c : Option String) (lo hi : Option ℚ)
    (v : Option TVal) : cmapVal lut c lo hi v = cmapVal lut c (nonZero lo) (nonZero hi) v := by
  have h : ∀ (o : Option ℚ) (d : Except Err ℚ), boundOr o d = boundOr (nonZero o) d := by
    intro o d
    cases o with
    | none => rfl
    | some b =>
      unfold nonZero
      by_cases hb : b = 0
      · simp only [hb, if_true, boundOr]
      · simp only [hb, if_false, boundOr]
  simp only [cmapVal, cmapBounds]
  rw [h lo, h hi]

/-- **C25.** The colours of any array for any bounds: those of the normalised elements when the lower bound
is below the upper one, the first colour for all when they are equal, and `ValueError` when they are
exchanged; a bound is the one given if this is not 0, or else that of the data. -/
theorem colormap_outcome (lut : Option String → ℚ → List ℚ) (c : Option String) (lo hi : Option ℚ) (v : TVal)
    (xs : List ℚ) (a b : ℚ) (hv : v.elems = .ok xs)
    (ha : UsesBound (nonZero lo) (IsMin xs) a) (hb : UsesBound (nonZero hi) (IsMax xs) b) :
    cmapVal lut c lo hi (some v) =
      if a < b then .ok (.mat 4 (xs.map (fun x => lut c ((x - a) / (b - a)))))
      else if a = b then .ok (.mat 4 (xs.map (fun _ => lut c 0)))
      else .error .valueError := by
  have hz : ∀ o, nonZero o ≠ some 0 := by
    intro o
    cases o with
    | none => simp [nonZero]
    | some g =>
      unfold nonZero
      split <;> simp_all
  rw [colormap_zero_bound]
  have h1 : boundOr (nonZero lo) (Except.bind (.ok xs) listMin) = .ok a := by
    cases hl : nonZero lo with
    | none => rw [hl] at ha; exact listMin_spec ha
    | some g =>
      rw [hl] at ha
      simp only [UsesBound] at ha
      subst ha
      simp only [boundOr]
      rw [if_neg (by intro h; exact hz lo (by rw [hl, h]))]
  have h2 : boundOr (nonZero hi) (Except.bind (.ok xs) listMax) = .ok b := by
    cases hl : nonZero hi with
    | none => rw [hl] at hb; exact listMax_spec hb
    | some g =>
      rw [hl] at hb
      simp only [UsesBound] at hb
      subst hb
      simp only [boundOr]
      rw [if_neg (by intro h; exact hz hi (by rw [hl, h]))]
  have h3 : cmapBounds (nonZero lo) (nonZero hi) (.ok xs) = .ok (a, b) := by
    simp only [cmapBounds, h1, h2]
  have hnum : ∀ x, v ≠ .num x := by
    rintro x rfl
    simp [TVal.elems] at hv
  have hval : cmapVal lut c (nonZero lo) (nonZero hi) (some v) =
      match normalise a b xs with
      | .ok ys => .ok (.mat 4 (ys.map (lut c)))
      | .error e => .error e := by
    unfold cmapVal
    simp only [hv, h3]
    cases v <;> simp_all <;> cases normalise a b xs <;> rfl
  rw [hval]
  unfold normalise
  rcases lt_trichotomy a b with h | h | h
  · rw [if_pos h, if_neg h.ne, if_neg (not_lt.2 h.le)]
    simp [Function.comp_def]
  · subst h
    simp [Function.comp_def]
  · rw [if_neg (not_lt.2 h.le), if_neg h.ne', if_neg h.ne', if_pos h]

example : cmapVal (fun _ y => [y]) none (some 0) (some 10) (some (.mat 2 [[5, 10], [10, 5]])) =
    .ok (.mat 4 [[0], [1], [1], [0]]) := by
  rw [colormap_outcome _ none (some 0) (some 10) (.mat 2 [[5, 10], [10, 5]]) [5, 10, 10, 5] 5 10 rfl
    (by simp [UsesBound, nonZero, IsMin]; norm_num) (by simp [UsesBound, nonZero])]
  norm_num

/-- **C25.** The colour of a single number: it is a vector, that of the normalised number when two bounds are
given, neither is 0 and the first is below the second; a number has no minimum or maximum of its own, so that
without such bounds there is `AttributeError`. -/
theorem colormap_number (lut : Option String → ℚ → List ℚ) (c : Option String) (lo hi : Option ℚ) (x : ℚ) :
    (∀ a b, lo = some a → hi = some b → a ≠ 0 → b ≠ 0 →
      cmapVal lut c lo hi (some (.num x)) =
        if a < b then .ok (.vec (lut c ((x - a) / (b - a))))
        else if a = b then .ok (.vec (lut c 0))
        else .error .valueError) ∧
    ((lo = none ∨ lo = some 0 ∨ hi = none ∨ hi = some 0) →
      cmapVal lut c lo hi (some (.num x)) = .error .attributeError) := by
  constructor
  · rintro a b rfl rfl ha hb
    unfold cmapVal
    simp only [cmapBounds, boundOr, if_neg ha, if_neg hb]
    unfold normalise
    rcases lt_trichotomy a b with h | h | h
    · rw [if_pos h, if_neg h.ne, if_neg (not_lt.2 h.le)]
      simp
    · subst h
      simp
    · rw [if_neg (not_lt.2 h.le), if_neg h.ne', if_neg h.ne', if_pos h]
  · intro h
    have e : ∀ o : Option ℚ, (o = none ∨ o = some 0 ∨ ∃ g, o = some g ∧ g ≠ 0) := by
      intro o
      cases o with
      | none => exact .inl rfl
      | some g => by_cases hg : g = 0
                  · exact .inr (.inl (by rw [hg]))
                  · exact .inr (.inr ⟨g, rfl, hg⟩)
    rcases e lo with rfl | rfl | ⟨a, rfl, ha⟩ <;> rcases e hi with rfl | rfl | ⟨b, rfl, hb⟩ <;>
      simp_all [cmapVal, cmapBounds, boundOr, TVal.elems, Except.bind]

example : cmapVal (fun _ y => [y, 1]) none (some 2) (some 6) (some (.num 3)) = .ok (.vec [1 / 4, 1]) := by
  rw [(colormap_number _ none (some 2) (some 6) 3).1 2 6 rfl rfl (by norm_num) (by norm_num)]
  norm_num

/-! ### C31 -/

/-- **C31.** Any list of sizes that are not negative: the paths hold the vertices in their order up to the
sum of the sizes; every vertex is in a path just when the sizes suffice, the paths have the sizes just when
there are enough vertices, so that all is well just when the sizes add up. -/
theorem paths_partition_iff {α : Type} (xs : List α) (ns : List Nat) :
    ∃ ys, cutPaths xs (.sizes (ns.map (fun n : Nat => (n : Int)))) = .ok ys ∧
      ys.length = ns.length ∧ ys.flatten = xs.take ns.sum ∧
      (ys.flatten = xs ↔ xs.length ≤ ns.sum) ∧ (ys.map List.length = ns ↔ ns.sum ≤ xs.length) := by
  have hf := cutSizes_flatten xs 0 ns
  simp only [List.take_zero, List.nil_append, Nat.zero_add] at hf
  refine ⟨_, rfl, ?_, hf, ?_, ?_, fun h => cutSizes_lengths xs 0 ns (by omega)⟩
  · generalize (0 : Int) = z
    have : ∀ (ns : List Int) z, (cutSizes xs z ns).length = ns.length := by
      intro ns
      induction ns with
      | nil => intro z; rfl
      | cons n ns ih => intro z; simp [cutSizes, ih]
    simpa using this (ns.map (fun n : Nat => (n : Int))) z
  · constructor
    · intro h
      have := congrArg List.length (hf.symm.trans h)
      rw [List.length_take] at this
      omega
    · intro h
      exact hf.trans (List.take_of_length_le h)
  · intro h
    have h1 := congrArg List.length hf
    have h2 := congrArg List.sum h
    rw [← List.length_flatten] at h2
    simp only [Nat.cast_zero] at h1
    rw [List.length_take] at h1
    omega

/-- **C31.** One size: every vertex is in a path just when the size divides their number. With a negative
size there is no path at all. -/
theorem paths_size_iff {α : Type} (xs : List α) (size : Nat) (hs : 0 < size) :
    (∃ ys, cutPaths xs (.size size) = .ok ys ∧ (∀ y ∈ ys, y.length = size) ∧
      (ys.flatten = xs ↔ size ∣ xs.length)) ∧
    (xs ≠ [] → cutPaths xs (.size (-size)) = .ok []) := by
  constructor
  · obtain ⟨ys, h1, h2, h3, h4, h5⟩ := paths_of_size_partial xs size hs
    refine ⟨ys, h1, h2, ?_, fun h => h5 (Nat.mod_eq_zero_of_dvd h)⟩
    intro h
    have := congrArg List.length (h4.symm.trans h)
    rw [List.length_take] at this
    have hle := Nat.div_mul_le_self xs.length size
    exact ⟨xs.length / size, by rw [Nat.mul_comm]; omega⟩
  · intro hne
    have hl : 0 < xs.length := List.length_pos_of_ne_nil hne
    simp only [cutPaths, cutEqual]
    rw [if_neg (by omega)]
    have : (Int.fdiv (xs.length : Int) (-(size : Int))).toNat = 0 := by
      apply Int.toNat_eq_zero.2
      rw [Int.fdiv_eq_ediv]
      have h0 : (xs.length : Int) / -(size : Int) ≤ 0 := by
        rw [Int.ediv_neg]
        have : 0 ≤ (xs.length : Int) / (size : Int) := Int.ediv_nonneg (by omega) (by omega)
        omega
      split <;> omega
    rw [this]
    rfl

example : ∃ ys, cutPaths [1, 2, 3, 4, 5] (.sizes [3, 4]) = .ok ys ∧ ys.flatten = [1, 2, 3, 4, 5] ∧
    ys.map List.length ≠ [3, 4] := ⟨_, rfl, by decide, by decide⟩

/-! ### C52 -/

section
variable {M D : Type} (b : RBody M D)

theorem render_again {s : RState M D} {vp : Nat} {old : Option D} (h : dget s.collections vp = some old) :
    (∀ v, dget (render b s ⟨vp, none, none, none⟩).1.collections v =
      if v = vp then some (redrawn b.draw ((b.mul s.proj s.view).bind (fun pv => b.mul pv s.model)) vp old)
      else dget s.collections v) := by
  intro v
  have hens : ensureCollection b { storeMatrices b.mul s ⟨vp, none, none, none⟩ with tracker := none } vp =
      ({ storeMatrices b.mul s ⟨vp, none, none, none⟩ with tracker := none }, .ok ()) := by
    unfold ensureCollection
    have : dget ({ storeMatrices b.mul s ⟨vp, none, none, none⟩ with tracker := none } : RState M D).collections vp
        = some old := h
    rw [this]
  unfold render
  dsimp only
  rw [hens]
  dsimp only [storeMatrices, Option.getD_none]
  cases hT : (b.mul s.proj s.view).bind (fun pv => b.mul pv s.model) with
  | none =>
    simp only [redrawn]
    split
    · rename_i hv; rw [hv]; exact h
    · rfl
  | some m =>
    simp only [redrawn]
    cases hd : b.draw m vp with
    | error e =>
      simp only
      split
      · rename_i hv; rw [hv]; exact h
      · rfl
    | ok d =>
      simp only
      rw [dget_dset]
      by_cases hv : v = vp
      · simp [hv]
      · simp [hv, Ne.symm hv]

theorem renders_again (vps : List Nat) (hn : vps.Nodup) : ∀ {s : RState M D},
    (∀ vp ∈ vps, ∃ old, dget s.collections vp = some old) → ∀ v,
    dget (vps.foldl (fun s vp => (render b s ⟨vp, none, none, none⟩).1) s).collections v =
      if v ∈ vps then (dget s.collections v).map
        (redrawn b.draw ((b.mul s.proj s.view).bind (fun pv => b.mul pv s.model)) v)
      else dget s.collections v := by
  induction vps with
  | nil => intro s _ v; simp
  | cons vp vps ih =>
    intro s hs v
    obtain ⟨old, hold⟩ := hs vp (by simp)
    have hone := render_again b hold
    obtain ⟨e1, e2, e3, _⟩ := render_matrices_eq b s ⟨vp, none, none, none⟩
    simp only [Option.getD_none] at e1 e2 e3
    rw [List.nodup_cons] at hn
    rw [List.foldl_cons, ih hn.2 (s := (render b s ⟨vp, none, none, none⟩).1) ?_ v, e1, e2, e3]
    · by_cases hv : v = vp
      · subst hv
        rw [if_neg hn.1, hone v, if_pos rfl, if_pos (by simp), hold]
        rfl
      · rw [hone v, if_neg hv]
        simp [hv]
    · intro x hx
      obtain ⟨o, ho⟩ := hs x (List.mem_cons_of_mem _ hx)
      rw [hone x]
      split
      · exact ⟨_, rfl⟩
      · exact ⟨o, ho⟩

/-- **C52.** What a resize draws, after any history of renders and resizes, with whatever failures: every
viewport of the canvas is drawn again with the product of the matrices last given in any viewport; the
viewports of other canvases stay as they are. -/
theorem resize_draws (one : M) (tr : Option Nat) (es : List (REvent M)) (cv v : Nat) :
    dget (rrun b (rinit one tr : RState M D) (es ++ [.resize cv])).collections v =
      if b.canvas v = cv then
        (dget (rrun b (rinit one tr : RState M D) es).collections v).map
          (redrawn b.draw (lastProduct b.mul one (callsOf es)) v)
      else dget (rrun b (rinit one tr : RState M D) es).collections v := by
  rw [rrun_snoc]
  have hw := (rrun_wired (D := D) b one tr es).1
  obtain ⟨g1, g2, g3⟩ := rrun_remembers (D := D) b one tr es
  simp only [rstep, resize]
  have hmem : ∀ x, x ∈ (rrun b (rinit one tr : RState M D) es).handlers ↔
      ∃ old, dget (rrun b (rinit one tr : RState M D) es).collections x = some old := by
    intro x
    rw [← hw.keys, mem_dkeys]
  rw [renders_again b _ (hw.nodup.filter _) (fun x hx => (hmem x).1 (List.mem_filter.1 hx).1)]
  have hT : (b.mul (rrun b (rinit one tr : RState M D) es).proj
      (rrun b (rinit one tr : RState M D) es).view).bind
        (fun pv => b.mul pv (rrun b (rinit one tr : RState M D) es).model) =
      lastProduct b.mul one (callsOf es) := by
    simp only [lastProduct, g1, g2, g3]
  rw [hT]
  by_cases hc : b.canvas v = cv
  · rw [if_pos hc]
    by_cases hv : v ∈ (rrun b (rinit one tr : RState M D) es).handlers
    · rw [if_pos (by simp [hv, hc])]
    · rw [if_neg (by simp [hv])]
      have : dget (rrun b (rinit one tr : RState M D) es).collections v = none := by
        cases hd : dget (rrun b (rinit one tr : RState M D) es).collections v with
        | none => rfl
        | some o => exact absurd ((hmem v).2 ⟨o, hd⟩) hv
      rw [this]
      rfl
  · rw [if_neg hc, if_neg (by simp [hc])]

end

example : dget (rrun rdemo (rinit 1 none) [.render ⟨1, some 2, none, none⟩,
      .render ⟨2, some 3, none, none⟩, .resize 0]).collections 1 = some (some 301) :=
  (resize_draws rdemo 1 none [.render ⟨1, some 2, none, none⟩, .render ⟨2, some 3, none, none⟩] 0 1).trans
    (by decide +kernel)

/-! ### C59 -/

section
variable {K : Type} [Field K] [LinearOrder K] [IsStrictOrderedRing K]

/-- **C59.** An outline with two different points, enlarged and shifted: the marker is the same just when it
is shifted by the same amount in both directions. -/
theorem svg_same_marker_iff (verts : List (Pt K)) (p q : Pt K) (hp : p ∈ verts) (hq : q ∈ verts)
    (hpq : p ≠ q) (k c d : K) (hk : 0 < k)
    (hco : ∃ x ∈ coords verts, ∃ y ∈ coords verts, x ≠ y) :
    svgScale (verts.map (fun p => (k * p.1 + c, k * p.2 + d))) = svgScale verts ↔ c = d := by
  obtain ⟨x, hx, y, hy, hxy⟩ := hco
  constructor
  · intro h
    obtain ⟨lo, hi, hlo, hhi, hb, hlt, he⟩ := svgScale_eq hx hy hxy
    -- the other outline has two different coordinates as well
    have hdiff : p.1 ≠ q.1 ∨ p.2 ≠ q.2 := by
      by_cases h1 : p.1 = q.1
      · right
        intro h2
        exact hpq (Prod.ext h1 h2)
      · exact .inl h1
    obtain ⟨x', hx', y', hy', hxy'⟩ : ∃ x ∈ coords (verts.map (fun p => (k * p.1 + c, k * p.2 + d))),
        ∃ y ∈ coords (verts.map (fun p => (k * p.1 + c, k * p.2 + d))), x ≠ y := by
      rcases hdiff with h1 | h1
      · refine ⟨k * p.1 + c, mem_coords.2 ⟨_, List.mem_map.2 ⟨p, hp, rfl⟩, .inl rfl⟩,
          k * q.1 + c, mem_coords.2 ⟨_, List.mem_map.2 ⟨q, hq, rfl⟩, .inl rfl⟩, fun e => h1 ?_⟩
        exact mul_left_cancel₀ hk.ne' (by linarith)
      · refine ⟨k * p.2 + d, mem_coords.2 ⟨_, List.mem_map.2 ⟨p, hp, rfl⟩, .inr rfl⟩,
          k * q.2 + d, mem_coords.2 ⟨_, List.mem_map.2 ⟨q, hq, rfl⟩, .inr rfl⟩, fun e => h1 ?_⟩
        exact mul_left_cancel₀ hk.ne' (by linarith)
    obtain ⟨lo', hi', _, _, _, hlt', he'⟩ := svgScale_eq hx' hy' hxy'
    rw [he, he', List.map_map] at h
    simp only [Except.ok.injEq, Option.some.injEq] at h
    have hpt := List.map_inj_left.1 h
    have w0 : hi - lo ≠ 0 := (sub_pos.2 hlt).ne'
    have w0' : hi' - lo' ≠ 0 := (sub_pos.2 hlt').ne'
    have key : ∀ r ∈ verts, (k * r.1 + c - lo') / (hi' - lo') = (r.1 - lo) / (hi - lo) ∧
        (k * r.2 + d - lo') / (hi' - lo') = (r.2 - lo) / (hi - lo) := by
      intro r hr
      have h1 := hpt r hr
      simp only [Function.comp, Prod.mk.injEq] at h1
      exact ⟨by linarith [h1.1], by linarith [h1.2]⟩
    have key' : ∀ r ∈ verts, (k * r.1 + c - lo') * (hi - lo) = (r.1 - lo) * (hi' - lo') ∧
        (k * r.2 + d - lo') * (hi - lo) = (r.2 - lo) * (hi' - lo') := by
      intro r hr
      obtain ⟨h1, h2⟩ := key r hr
      rw [div_eq_div_iff w0' w0] at h1 h2
      exact ⟨h1, h2⟩
    have kp := key' p hp
    have kq := key' q hq
    have hw : hi' - lo' = k * (hi - lo) := by
      rcases hdiff with h1 | h1
      · refine mul_left_cancel₀ (sub_ne_zero.2 h1) ?_
        linear_combination kq.1 - kp.1
      · refine mul_left_cancel₀ (sub_ne_zero.2 h1) ?_
        linear_combination kq.2 - kp.2
    have e1 : (c - lo') * (hi - lo) = -lo * (k * (hi - lo)) := by
      rw [← hw]
      linear_combination kp.1 + p.1 * hw
    have e2 : (d - lo') * (hi - lo) = -lo * (k * (hi - lo)) := by
      rw [← hw]
      linear_combination kp.2 + p.2 * hw
    have := mul_right_cancel₀ w0 (e1.trans e2.symm)
    linarith
  · rintro rfl
    exact svg_same_marker_partial verts x y hx hy hxy k c hk

end

example : ((0, 3) : Pt ℚ) ∈ [((0, 3) : Pt ℚ), (1, 3), (1, 4)] ∧ ((0, 3) : Pt ℚ) ≠ (1, 3) ∧
    ∃ x ∈ coords [((0, 3) : Pt ℚ), (1, 3), (1, 4)], ∃ y ∈ coords [((0, 3) : Pt ℚ), (1, 3), (1, 4)], x ≠ y := by
  decide +kernel

end Verif
