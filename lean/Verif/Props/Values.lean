import Verif.Lemmas.Values
import Verif.Lemmas.Transform
/-
C23-C26: measures, colormaps, accessors and outputs.
-/

namespace Verif

/-! ### C23: measures are mutually consistent -/

/-- For every resolution, canvas, viewport and value: an inch is 72 points and 2.54
centimetres, and a centimetre is 10 millimetres. Missing: the metre (next theorem). -/
theorem units_consistent_partial (m : MVars) (v : TVal) :
    measureVal m .inch v = measureVal m .point (v.scaleBy 72) ∧
    measureVal m .inch v = measureVal m .centimeter (v.scaleBy (254 / 100)) ∧
    measureVal m .centimeter v = measureVal m .millimeter (v.scaleBy 10) ∧
    measureVal m .kilometer v = measureVal m .centimeter (v.scaleBy 100000) := by
  refine ⟨?_, ?_, ?_, ?_⟩ <;>
    refine measureVal_scale m (by simp) (by simp) (fun d => ?_) v <;>
    simp only [MUnit.factor] <;> ring

/-- A metre is not 100 but 1000 centimetres, so that a kilometre is 100 metres. -/
theorem meter_is_too_long (m : MVars) (v : TVal) :
    measureVal m .meter v = measureVal m .centimeter (v.scaleBy 1000) ∧
    measureVal m .kilometer v = measureVal m .meter (v.scaleBy 100) := by
  refine ⟨?_, ?_⟩ <;>
    refine measureVal_scale m (by simp) (by simp) (fun d => ?_) v <;>
    simp only [MUnit.factor] <;> ring

/-- Only a resolution is given. -/
def dpiVars (d : ℚ) : MVars := ⟨some d, none, none, none, none, []⟩

theorem units_consistent_fails : ∃ m : MVars,
    measureVal m .meter (.num 1) ≠ measureVal m .centimeter (.num 100) ∧
    measureVal m .kilometer (.num 1) ≠ measureVal m .meter (.num 1000) := by
  refine ⟨dpiVars 254, ?_, ?_⟩ <;>
    · simp only [measureVal, dpiVars, MVars.scale, MVars.extent, MVars.resolution, Option.getD_none,
        scaleVal, TVal.scaleBy, MUnit.factor]
      norm_num

/-- Where a pixel has a meaning, a pixel is one unit and an inch as many pixels as the
resolution says. -/
theorem pixel_is_unit (d x : ℚ) :
    measureVal (dpiVars d) .pixel (.num x) = .ok (.num x) ∧
    measureVal (dpiVars d) .inch (.num x) = .ok (.num (d * x)) := by
  simp [measureVal, dpiVars, MVars.scale, MVars.extent, MVars.resolution, scaleVal, TVal.scaleBy,
    MUnit.factor]

/-- An inch is `dpi` pixels, for every canvas, viewport and value: the resolution is the one given, or else that
of the canvas given, or else that of the canvas of the viewport. -/
theorem inch_is_dpi_pixels (m : MVars) (d : ℚ)
    (hr : m.dpi = some d ∨ (m.dpi = none ∧ ∃ c, m.canvas = some c ∧ c.dpi = d) ∨
      (m.dpi = none ∧ m.canvas = none ∧ ∃ p, m.viewport = some p ∧ p.dpi = d)) (v : TVal) :
    measureVal m .inch v = measureVal m .pixel (v.scaleBy d) := by
  have hd : m.resolution = some d := by
    rcases hr with h | ⟨h, c, hc, rfl⟩ | ⟨h, hc, p, hp, rfl⟩
    · simp only [MVars.resolution, h]
    · simp only [MVars.resolution, h, hc]
    · simp only [MVars.resolution, h, hc, hp, Option.map_some]
  unfold measureVal
  cases m.scale with
  | error e => rfl
  | ok s =>
    dsimp only
    rw [scaleVal_scaleBy]
    cases scaleVal s v with
    | error e => rfl
    | ok r => simp only [Except.map, hd, MUnit.factor]

example : measureVal (dpiVars 144) .inch (.num 2) = .ok (.num 288) := by
  rw [(pixel_is_unit 144 2).2]; norm_num

/-! ### C24: a measure converts pixels to normalised coordinates -/

/-- On a canvas: scalars are divided by the width, coordinates by width and height. The third
coordinate becomes 0 (missing: it should be unchanged). -/
theorem measure_on_canvas_partial (m : MVars) (c : MCanvas) (h1 : m.dpi = none)
    (h2 : m.viewport = none) (h3 : m.canvas = some c) (h4 : m.size = none)
    (hw : c.width ≠ 0) (hh : c.height ≠ 0) (x y z : ℚ) :
    measureVal m .pixel (.num x) = .ok (.num (x / c.width)) ∧
    measureVal m .pixel (.vec [x, y]) = .ok (.vec [x / c.width, y / c.height]) ∧
    measureVal m .pixel (.vec [x, y, z]) = .ok (.vec [x / c.width, y / c.height, 0]) := by
  have hs : m.scale = .ok (1 * (1 / c.width), 1 * (1 / c.height), 0) := by
    simp [MVars.scale, MVars.extent, h1, h2, h3, h4, hw, hh]
  refine ⟨?_, ?_, ?_⟩
  · simp only [measureVal, hs, scaleVal]
    congr 2; ring
  · simp only [measureVal, hs, scaleVal_row2]
    congr 3
    · ring
    · congr 1; ring
  · simp only [measureVal, hs, scaleVal_row3]
    congr 3
    · ring
    · congr 1
      · ring
      · congr 1; ring

/-- In a viewport: `v` pixels span the fraction `v/width` (or `v/height`) of the extent of the
limits. The third coordinate becomes 0. -/
theorem measure_in_viewport_partial (m : MVars) (p : MViewport) (h1 : m.dpi = none)
    (h2 : m.viewport = some p) (h4 : m.size = none)
    (hw : p.width ≠ 0) (hh : p.height ≠ 0) (x y z : ℚ) :
    measureVal m .pixel (.num x) = .ok (.num (x / p.width * (p.xmax - p.xmin))) ∧
    measureVal m .pixel (.vec [x, y]) =
      .ok (.vec [x / p.width * (p.xmax - p.xmin), y / p.height * (p.ymax - p.ymin)]) ∧
    measureVal m .pixel (.vec [x, y, z]) =
      .ok (.vec [x / p.width * (p.xmax - p.xmin), y / p.height * (p.ymax - p.ymin), 0]) := by
  have hs : m.scale = .ok ((p.xmax - p.xmin) * (1 / p.width), (p.ymax - p.ymin) * (1 / p.height),
      0) := by
    simp [MVars.scale, MVars.extent, h1, h2, h4, hw, hh]
  refine ⟨?_, ?_, ?_⟩
  · simp only [measureVal, hs, scaleVal]
    congr 2; ring
  · simp only [measureVal, hs, scaleVal_row2]
    congr 3
    · ring
    · congr 1; ring
  · simp only [measureVal, hs, scaleVal_row3]
    congr 3
    · ring
    · congr 1
      · ring
      · congr 1; ring

/-- The same for arrays of 2d or 3d coordinates, row by row, for every source of the scale. -/
theorem measure_rows (m : MVars) (s : ℚ × ℚ × ℚ) (hs : m.scale = .ok s) (k : Nat)
    (hk : k = 2 ∨ k = 3) (rows : List (List ℚ)) (hr : ∀ r ∈ rows, r.length = k) :
    s.2.2 = 0 ∧
    measureVal m .pixel (.mat k rows) = .ok (.mat k (rows.map (scaleRow s.1 s.2.1 0))) := by
  have hz : s.2.2 = 0 := by
    unfold MVars.scale at hs
    split at hs
    · simp at hs
    · dsimp only at hs
      split at hs
      · simp at hs
      · simp only [Except.ok.injEq] at hs
        rw [← hs]
  refine ⟨hz, ?_⟩
  simp only [measureVal, hs, scaleVal_mat s hk hr, hz]

/-- An array of coordinates is measured row by row, in every unit: it has a value exactly if each of its rows has,
and its rows are those values. -/
theorem measure_row_by_row (m : MVars) (u : MUnit) (k : Nat) (rows rows' : List (List ℚ)) (hne : rows ≠ [])
    (hr : ∀ r ∈ rows, r.length = k) :
    measureVal m u (.mat k rows) = .ok (.mat k rows') ↔
      List.Forall₂ (fun r r' => measureVal m u (.vec r) = .ok (.vec r')) rows rows' := by
  have none_of : ∀ {P : List ℚ → List ℚ → Prop}, (∀ r ∈ rows, ∀ r', ¬ P r r') → ¬ List.Forall₂ P rows rows' := by
    intro P h hf
    cases hf with
    | nil => exact hne rfl
    | cons hab _ => exact h _ (by simp) _ hab
  unfold measureVal
  cases hs : m.scale with
  | error e => simpa using none_of (fun r _ r' => by simp)
  | ok s =>
    by_cases hk : k = 1 ∨ k = 2 ∨ k = 3
    · obtain ⟨g, h1, h2⟩ := scaleVal_rows s hk
      simp only [h2 rows hr]
      have fin : ∀ f : ℚ → ℚ, ((.ok (.mat k ((rows.map g).map (List.map f))) : Except Err TVal) = .ok (.mat k rows') ↔
          List.Forall₂ (fun r r' => (.ok (.vec ((g r).map f)) : Except Err TVal) = .ok (.vec r')) rows rows') := by
        intro f
        rw [forall2_iff_map (g := fun r => (g r).map f) (fun r _ y => by simp [eq_comm])]
        simp [eq_comm, Function.comp_def]
      have cong : ∀ {P Q : List ℚ → List ℚ → Prop}, (∀ r ∈ rows, ∀ r', P r r' ↔ Q r r') →
          (List.Forall₂ P rows rows' ↔ List.Forall₂ Q rows rows') := by
        intro P Q h
        constructor
        · intro hf
          exact (List.forall₂_iff_get.2 ⟨(List.forall₂_iff_get.1 hf).1, fun i a b =>
            (h _ (by simp) _).1 ((List.forall₂_iff_get.1 hf).2 i a b)⟩)
        · intro hf
          exact (List.forall₂_iff_get.2 ⟨(List.forall₂_iff_get.1 hf).1, fun i a b =>
            (h _ (by simp) _).2 ((List.forall₂_iff_get.1 hf).2 i a b)⟩)
      cases u with
      | pixel =>
        have := fin (fun x => x)
        simp only [List.map_id', List.map_id_fun', id_eq] at this
        simpa using this.trans (cong (fun r hm r' => by simp only [h1 r (hr r hm)]))
      | _ =>
        cases hd : m.resolution with
        | none => simpa using none_of (fun r hm r' => by simp [h1 r (hr r hm)])
        | some d => exact (fin _).trans (cong (fun r hm r' => by simp only [h1 r (hr r hm), TVal.scaleBy]))
    · obtain ⟨h1, h2⟩ := scaleVal_odd s (k := k) (by tauto) (by tauto) (by tauto)
      simp only [h2 rows]
      simpa using none_of (fun r hm r' => by simp [h1 r (hr r hm)])

/-- A viewport of 200 by 100 pixels, with limits [-1,1]. -/
def demoVars : MVars := ⟨none, some ⟨100, 200, 100, -1, 1, -1, 1⟩, none, none, none, []⟩

example : measureVal demoVars .pixel (.vec [50, 50]) = .ok (.vec [1 / 2, 1]) := by
  rw [(measure_in_viewport_partial demoVars _ rfl rfl rfl (by decide) (by decide) 50 50 0).2.1]
  norm_num

/-- Two rows in inches. -/
example : measureVal demoVars .inch (.mat 2 [[1, 1], [0, 3]]) = .ok (.mat 2 [[1, 2], [0, 6]]) ∧
    measureVal demoVars .inch (.vec [1, 1]) = .ok (.vec [1, 2]) := by
  decide +kernel

/-- The full claim says that z is unchanged; it is set to 0. -/
theorem measure_keeps_z_fails :
    measureVal demoVars .pixel (.vec [0, 0, 3]) = .ok (.vec [0, 0, 0]) := by
  rw [(measure_in_viewport_partial demoVars _ rfl rfl rfl (by decide) (by decide) 0 0 3).2.2]
  norm_num

/-- Without resolution, canvas and viewport, every measure raises ValueError. -/
theorem measure_needs_extent (m : MVars) (h1 : m.dpi = none) (h2 : m.viewport = none)
    (h3 : m.canvas = none) (u : MUnit) (v : TVal) : measureVal m u v = .error .valueError := by
  simp [measureVal, MVars.scale, MVars.extent, h1, h2, h3]

/-! ### C25: a colormap uses the bounds it is given -/

/-- The bound that is to be used: the given one, or else that of the data. -/
def UsesBound (given : Option ℚ) (ofData : ℚ → Prop) (b : ℚ) : Prop :=
  match given with
  | some g => b = g
  | none => ofData b

/-- Every element is normalised with the given bounds, or those of the data, provided no given
bound is 0. Missing: a bound of 0 (`colormap_bounds_fails`). -/
theorem colormap_bounds_partial (lut : Option String → ℚ → List ℚ) (c : Option String)
    (lo hi : Option ℚ) (xs : List ℚ) (a b : ℚ) (hlo : lo ≠ some 0) (hhi : hi ≠ some 0)
    (ha : UsesBound lo (IsMin xs) a) (hb : UsesBound hi (IsMax xs) b) (hab : a < b) :
    cmapVal lut c lo hi (some (.vec xs)) =
      .ok (.mat 4 (xs.map (fun x => lut c ((x - a) / (b - a))))) := by
  have h1 : boundOr lo (Except.bind (.ok xs) listMin) = .ok a := by
    cases lo with
    | none => exact listMin_spec ha
    | some g =>
      simp only [UsesBound] at ha
      subst ha
      simp only [boundOr]
      rw [if_neg (by intro h; exact hlo (by rw [h]))]
  have h2 : boundOr hi (Except.bind (.ok xs) listMax) = .ok b := by
    cases hi with
    | none => exact listMax_spec hb
    | some g =>
      simp only [UsesBound] at hb
      subst hb
      simp only [boundOr]
      rw [if_neg (by intro h; exact hhi (by rw [h]))]
  have h3 : cmapBounds lo hi (.ok xs) = .ok (a, b) := by
    simp only [cmapBounds, h1, h2]
  simp only [cmapVal, TVal.elems, h3, normalise]
  rw [if_neg (ne_of_lt hab), if_neg (not_lt.2 (le_of_lt hab))]
  simp [Function.comp_def]

/-- Normalised values lie in [0,1] when the bounds enclose the data. -/
theorem colormap_range (a b x : ℚ) (hab : a < b) (h1 : a ≤ x) (h2 : x ≤ b) :
    0 ≤ (x - a) / (b - a) ∧ (x - a) / (b - a) ≤ 1 := by
  have : 0 < b - a := by linarith
  exact ⟨div_nonneg (by linarith) (le_of_lt this), by rw [div_le_iff₀ this]; linarith⟩

/-- Without bounds all normalised values lie in [0,1], whatever the data, unless all elements
are equal. -/
theorem colormap_dynamic (lut : Option String → ℚ → List ℚ) (c : Option String) (xs : List ℚ)
    (a b : ℚ) (ha : IsMin xs a) (hb : IsMax xs b) (hab : a < b) :
    ∃ ys : List ℚ, cmapVal lut c none none (some (.vec xs)) = .ok (.mat 4 (ys.map (lut c))) ∧
      ys.length = xs.length ∧ ∀ y ∈ ys, 0 ≤ y ∧ y ≤ 1 := by
  refine ⟨xs.map (fun x => (x - a) / (b - a)), ?_, by simp, ?_⟩
  · rw [colormap_bounds_partial lut c none none xs a b (by simp) (by simp) ha hb hab]
    simp [Function.comp_def]
  · intro y hy
    obtain ⟨x, hx, rfl⟩ := List.mem_map.1 hy
    exact colormap_range a b x hab (ha.2 x hx) (hb.2 x hx)

example : cmapVal (fun _ y => [y]) none (some (-1)) (some 3) (some (.vec [1, 2])) =
    .ok (.mat 4 [[1 / 2], [3 / 4]]) := by
  rw [colormap_bounds_partial _ _ (some (-1)) (some 3) [1, 2] (-1) 3 (by simp) (by simp) rfl rfl
    (by norm_num)]
  norm_num

/-- With `vmin=0` the data 5, 10 is normalised from 5 on: 5 is mapped to 0 instead of 1/2. -/
theorem colormap_bounds_fails :
    cmapVal (fun _ y => [y]) none (some 0) (some 10) (some (.vec [5, 10])) =
      .ok (.mat 4 [[0], [1]]) := by
  simp only [cmapVal, TVal.elems, cmapBounds, boundOr, Except.bind, listMin, List.foldl, if_true]
  norm_num [normalise]

/-! ### C26: accessors and outputs select the component they name -/

/-- An accessor named after a component gives this component of every item, for arrays of any
number of items of any dimension that has it. -/
theorem accessor_component (c : Char) (i k : Nat) (hc : named c = some i) (hik : i < k)
    (rows : List (List ℚ)) (hr : ∀ r ∈ rows, r.length = k) :
    ∃ ys, accessVal none (some (String.ofList [c])) (.mat k rows) = .ok (.vec ys) ∧
      IsColumn rows i ys := by
  obtain ⟨ys, h1, h2⟩ := getElem_isColumn hik hr
  refine ⟨ys, ?_, h2⟩
  have hcomp : component i (.mat k rows) = .ok (.vec ys) := by
    simp only [component, if_pos hik, h1]
  rcases findSub_named hc with h | ⟨h, h'⟩
  · simp only [accessVal, String.toList_ofList, h, hcomp]
  · simp only [accessVal, String.toList_ofList, h, h', hcomp]

/-- The same for a single item, and for records. -/
theorem accessor_item (c : Char) (i : Nat) (hc : named c = some i) (xs : List ℚ) (x : ℚ)
    (hx : xs[i]? = some x) :
    accessVal none (some (String.ofList [c])) (.vec xs) = .ok (.num x) := by
  have hcomp : component i (.vec xs) = .ok (.num x) := by
    simp only [component, npGet_nat hx]
  rcases findSub_named hc with h | ⟨h, h'⟩
  · simp only [accessVal, String.toList_ofList, h, hcomp]
  · simp only [accessVal, String.toList_ofList, h, h', hcomp]

theorem accessor_field (cols : Dict String (List ℚ)) (key : String) (xs : List ℚ)
    (h : dget cols key = some xs) : accessVal none (some key) (.recs cols) = .ok (.vec xs) := by
  simp only [accessVal, h]

/-- A component that is not there raises IndexError. -/
theorem accessor_out_of_range (c : Char) (i k : Nat) (hc : named c = some i) (hik : k ≤ i)
    (rows : List (List ℚ)) :
    accessVal none (some (String.ofList [c])) (.mat k rows) = .error .indexError := by
  have hcomp : component i (.mat k rows) = .error .indexError := by
    simp only [component, if_neg (Nat.not_lt.2 hik)]
  rcases findSub_named hc with h | ⟨h, h'⟩
  · simp only [accessVal, String.toList_ofList, h, hcomp]
  · simp only [accessVal, String.toList_ofList, h, h', hcomp]

/-- Item `i` of a list, negative numbers counting from the end. -/
def itemAt (xs : List ℚ) (i : Int) : Option ℚ :=
  if 0 ≤ i then xs[i.toNat]? else if -(xs.length : Int) ≤ i then xs[xs.length - i.natAbs]? else none

theorem npGet_itemAt (xs : List ℚ) (i : Int) :
    npGet xs i = match itemAt xs i with
      | some x => .ok x
      | none => .error .indexError := by
  unfold npGet itemAt
  dsimp only
  by_cases h0 : 0 ≤ i
  · have h1 : ¬ i < 0 := by omega
    simp only [if_pos h0, if_neg h1]
    cases xs[i.toNat]? <;> rfl
  · have h1 : i < 0 := by omega
    simp only [if_neg h0, if_pos h1]
    by_cases h2 : -(xs.length : Int) ≤ i
    · have h3 : ¬ (i + (xs.length : Int) < 0) := by omega
      have h4 : (i + (xs.length : Int)).toNat = xs.length - i.natAbs := by omega
      simp only [if_pos h2, if_neg h3, h4]
      cases xs[xs.length - i.natAbs]? <;> rfl
    · have h3 : i + (xs.length : Int) < 0 := by omega
      simp only [if_neg h2, if_pos h3]

/-- C26. With an index, the result holds one item per entry of the index, the item at that
place of the component; an entry out of range raises `IndexError`. -/
theorem accessor_indexed (index : List Int) (key : Option String) (v : TVal) (xs : List ℚ)
    (h : accessVal none key v = .ok (.vec xs)) :
    ((∀ i ∈ index, -(xs.length : Int) ≤ i ∧ i < xs.length) →
      ∃ ys : List ℚ, accessVal (some index) key v = .ok (.vec ys) ∧
        ys.map some = index.map (itemAt xs)) ∧
    ((∃ i ∈ index, i < -(xs.length : Int) ∨ (xs.length : Int) ≤ i) →
      accessVal (some index) key v = .error .indexError) := by
  have he : accessVal (some index) key v = pick index (.vec xs) := by
    simp only [accessVal] at h ⊢
    split at h
    · simp at h
    · rename_i r hr
      simp only [Except.ok.injEq] at h
      rw [h]
  rw [he]
  clear he h
  have hin : ∀ i : Int, (-(xs.length : Int) ≤ i ∧ i < xs.length) → ∃ x, itemAt xs i = some x := by
    intro i hi
    unfold itemAt
    split
    · exact ⟨_, List.getElem?_eq_getElem (show i.toNat < xs.length by omega)⟩
    · rw [if_pos hi.1]
      exact ⟨_, List.getElem?_eq_getElem (show xs.length - i.natAbs < xs.length by omega)⟩
  have hout : ∀ i : Int, (i < -(xs.length : Int) ∨ (xs.length : Int) ≤ i) → itemAt xs i = none := by
    intro i hi
    unfold itemAt
    split
    · rw [List.getElem?_eq_none_iff]; omega
    · rw [if_neg (by omega)]
  have key : ∀ index : List Int,
      ((∀ i ∈ index, -(xs.length : Int) ≤ i ∧ i < xs.length) →
        ∃ ys, index.mapM (npGet xs) = .ok ys ∧ ys.map some = index.map (itemAt xs)) ∧
      ((∃ i ∈ index, i < -(xs.length : Int) ∨ (xs.length : Int) ≤ i) →
        index.mapM (npGet xs) = .error .indexError) := by
    intro index
    induction index with
    | nil => exact ⟨fun _ => ⟨[], rfl, rfl⟩, by simp⟩
    | cons i index ih =>
      by_cases hi : -(xs.length : Int) ≤ i ∧ i < xs.length
      · obtain ⟨x, hx⟩ := hin i hi
        have hg : npGet xs i = .ok x := by rw [npGet_itemAt, hx]
        constructor
        · intro hall
          obtain ⟨ys, h1, h2⟩ := ih.1 (fun k hk => hall k (by simp [hk]))
          refine ⟨x :: ys, ?_, by simp [h2, hx]⟩
          simp [List.mapM_cons, hg, h1, bind, Except.bind, pure, Except.pure]
        · rintro ⟨k, hk, hb⟩
          rcases List.mem_cons.1 hk with rfl | hk
          · omega
          · simp [List.mapM_cons, hg, ih.2 ⟨k, hk, hb⟩, bind, Except.bind]
      · constructor
        · intro hall
          exact absurd (hall i (by simp)) hi
        · intro _
          have : itemAt xs i = none := hout i (by omega)
          have hg : npGet xs i = .error .indexError := by rw [npGet_itemAt, this]
          simp [List.mapM_cons, hg, bind, Except.bind]
  constructor
  · intro hall
    obtain ⟨ys, h1, h2⟩ := (key index).1 hall
    exact ⟨ys, by simp only [pick, h1], h2⟩
  · intro hex
    simp only [pick, (key index).2 hex]

example : accessVal (some [2, -3, 0]) (some "y") (.mat 2 [[1, 10], [2, 20], [3, 30]]) =
    .ok (.vec [30, 10, 10]) := by decide +kernel

/-- An accessor that is bound to nothing raises ValueError. -/
theorem accessor_unbound {V : Type} (S : TSem V) (h : THeap V) (r : Nat) (b : Option Nat)
    (own key : Option String) (ht : h[r]? = some ⟨b, none, none, .accessor own key⟩) (f : Nat) :
    evalT S h (f + 1) r = .error .valueError := by
  unfold evalT
  rw [ht]
  rfl

/-- An accessor applied to another transform gives the component of its value. -/
theorem accessor_chained (lut : Option String → ℚ → List ℚ) (m : MVars) (h : THeap TVal)
    (r x : Nat) (b : Option Nat) (own key : Option String) (buf : Option TVal) (v : TVal)
    (ht : h[r]? = some ⟨b, some x, buf, .accessor own key⟩) (f : Nat)
    (hx : evalT (valSem lut m) h f x = .ok v) :
    evalT (valSem lut m) h (f + 1) r = accessVal m.index key v := by
  conv => lhs; unfold evalT
  rw [ht]
  simp only [evalNode, evalArg, hx]
  rfl

/-- A key that names several components is accepted, and gives the first of them only. -/
theorem accessor_component_fails :
    accessVal none (some "xy") (.mat 2 [[1, 2], [3, 4]]) = .ok (.vec [1, 3]) ∧
    accessVal none (some "") (.mat 2 [[1, 2], [3, 4]]) = .ok (.vec [1, 3]) := by
  constructor <;> rfl

/-- Outputs: `name` alone gives the variable. -/
theorem out_whole (vars : Dict String TVal) (name : String) (v : TVal) (hn : '.' ∉ name.toList)
    (h : dget vars name = some v) : outVal vars (some name) = .ok v := by
  simp only [outVal, if_neg hn, h]

/-- `name.key` gives, item by item, the named components in the order of the key, for every
key written in one of the two notations. -/
theorem out_components (vars : Dict String TVal) (name : List Char) (key : List Char)
    (hn : '.' ∉ name) (hk : '.' ∉ key) (ix : List Nat) (k : Nat) (rows : List (List ℚ))
    (hnot : (∀ c ∈ key, c ∈ ['x', 'y', 'z', 'w']) ∨ ∀ c ∈ key, c ∈ ['r', 'g', 'b', 'a'])
    (hix : key.map named = ix.map some)
    (hik : ∀ i ∈ ix, i < k) (hr : ∀ r ∈ rows, r.length = k)
    (h : dget vars (String.ofList name) = some (.mat k rows)) :
    ∃ ys, outVal vars (some (String.ofList (name ++ '.' :: key))) = .ok (.mat ix.length ys) ∧
      ys.length = rows.length ∧
      ∀ (j : Nat) row, rows[j]? = some row → ys[j]? = some (ix.map (fun i => row.getD i 0)) := by
  have hsplit : splitChars '.' (name ++ '.' :: key) = [name, key] := by
    rw [splitChars_append hn, splitChars_of_not_mem hk]
  have hidx : outIndex key = some ix := outIndex_named hnot hix
  have hrow : ∀ r ∈ rows, ix.mapM (fun i : Nat => npGet r i) = .ok (ix.map (fun i => r.getD i 0)) := by
    intro r hr'
    refine mapM_ok_of_forall (fun i hi => ?_)
    have hl := hr r hr'
    have := hik i hi
    rw [npGet_nat (List.getElem?_eq_getElem (by omega))]
    simp [hl, this]
  have hall : ix.all (· < k) = true := by simpa using hik
  refine ⟨rows.map (fun r => ix.map (fun i => r.getD i 0)), ?_, by simp, ?_⟩
  · simp only [outVal, String.toList_ofList, hsplit, List.headD_cons, h]
    rw [if_pos (by simp)]
    have : [name, key].getLastD [] = key := rfl
    rw [this, hidx]
    simp only [components, if_pos hall, mapM_ok_of_forall hrow]
  · intro j row hj
    simp [hj]

/-- A key with a letter that is not of the first notation and one that is not of the second raises NameError. -/
theorem out_bad_key (vars : Dict String TVal) (name : List Char) (key : List Char)
    (hn : '.' ∉ name) (hk : '.' ∉ key) (v : TVal)
    (h1 : ∃ c ∈ key, c ∉ ['x', 'y', 'z', 'w']) (h2 : ∃ c ∈ key, c ∉ ['r', 'g', 'b', 'a'])
    (h : dget vars (String.ofList name) = some v) :
    outVal vars (some (String.ofList (name ++ '.' :: key))) = .error .nameError := by
  have hsplit : splitChars '.' (name ++ '.' :: key) = [name, key] := by
    rw [splitChars_append hn, splitChars_of_not_mem hk]
  have hidx : outIndex key = none := outIndex_none h1 h2
  simp only [outVal, String.toList_ofList, hsplit, List.headD_cons, h]
  rw [if_pos (by simp)]
  have : [name, key].getLastD [] = key := rfl
  rw [this, hidx]

/-- A missing variable raises ValueError. -/
theorem out_missing (vars : Dict String TVal) (name : String) (hn : '.' ∉ name.toList)
    (h : dget vars name = none) : outVal vars (some name) = .error .valueError := by
  simp only [outVal, if_neg hn, h]

example : outVal [("screen", .mat 3 [[1, 2, 3], [4, 5, 6]])] (some "screen.yx") =
    .ok (.mat 2 [[2, 1], [5, 4]]) := rfl
example : ∃ ys, outVal [("screen", .mat 3 [[1, 2, 3], [4, 5, 6]])] (some (String.ofList ("screen".toList ++ '.' :: ['b', 'r']))) =
    .ok (.mat 2 ys) ∧ ys[1]? = some [6, 4] := by
  obtain ⟨ys, h1, -, h3⟩ := out_components [("screen", .mat 3 [[1, 2, 3], [4, 5, 6]])] "screen".toList ['b', 'r']
    (by decide) (by decide) [2, 0] 3 [[1, 2, 3], [4, 5, 6]] (by decide) (by decide) (by decide) (by decide) rfl
  exact ⟨ys, h1, h3 1 [4, 5, 6] rfl⟩
example : outVal [("screen", .mat 3 [[1, 2, 3]])] (some "screen.xr") = .error .nameError := rfl
example : accessVal none (some "y") (.mat 3 [[1, 2, 3], [4, 5, 6]]) = .ok (.vec [2, 5]) := rfl
example : named 'y' = some 1 ∧ (1 : Nat) < 3 := by decide

end Verif
