import Verif.Lemmas.Swizzle
import Mathlib.Data.List.Nodup
/-
C38 and C39: swizzles and vector conversions.
-/

namespace Verif

/-! ### C38 -/

/-- A name stands for the components its letters have in one notation. -/
theorem swizzle_names {names : List (List Char)} {key : List Char} {idx : List Nat} {k : Nat}
    (h : swizzleIndices names key = some idx) (hk : ∀ s ∈ names, s.length = k) :
    ∃ s ∈ names, idx.length = key.length ∧ (∀ j ∈ idx, j < k) ∧
      (∀ (p j : Nat), idx[p]? = some j → s[j]? = key[p]?) ∧ (key.Nodup → idx.Nodup) := by
  unfold swizzleIndices at h
  split at h
  · cases h
  · rename_i s hs
    simp only [Option.some.injEq] at h
    subst h
    have hmem := List.mem_of_find?_eq_some hs
    have hall := List.find?_some hs
    simp only [List.all_eq_true, List.contains_iff_mem] at hall
    refine ⟨s, hmem, by simp, ?_, ?_, ?_⟩
    · intro j hj
      obtain ⟨c, hc, rfl⟩ := List.mem_map.1 hj
      rw [← hk s hmem]
      exact List.idxOf_lt_length_of_mem (hall c hc)
    · intro p j hp
      rw [List.getElem?_map] at hp
      cases hkp : key[p]? with
      | none => rw [hkp] at hp; cases hp
      | some c =>
        rw [hkp] at hp
        simp only [Option.map_some, Option.some.injEq] at hp
        subst hp
        have hc := hall c (List.mem_of_getElem? hkp)
        exact List.getElem?_idxOf hc
    · intro hn
      refine List.Nodup.map_on ?_ hn
      intro a ha b hb hab
      have h1 := List.getElem?_idxOf (hall a ha)
      have h2 := List.getElem?_idxOf (hall b hb)
      rw [hab, h2] at h1
      exact (Option.some.inj h1).symm

example : swizzleIndices vec4Names "wx".toList = some [3, 0] ∧
    swizzleIndices vec4Names "ar".toList = some [3, 0] := by decide +kernel

/-- Reading gives the named components in the order of the name. -/
theorem swizzle_reads {k : Nat} {names : List (List Char)} {key : List Char} {idx : List Nat}
    {Z : Rows} (h : swizzleIndices names key = some idx) (hk : ∀ s ∈ names, s.length = k)
    (hZ : IsRows k Z) :
    ∃ R, getAttr names Z key = .ok R ∧ R.length = Z.length ∧
      ∀ (i : Nat) row, Z[i]? = some row → ∃ r, R[i]? = some r ∧ r.length = key.length ∧
        ∀ (p j : Nat), idx[p]? = some j → r[p]? = row[j]? := by
  obtain ⟨s, _, hlen, hlt, _, _⟩ := swizzle_names h hk
  refine ⟨getSwizzle Z idx, by simp [getAttr, h], by simp [getSwizzle], ?_⟩
  intro i row hrow
  have hr : row.length = k := hZ row (List.mem_of_getElem? hrow)
  have hfm : ∀ (l : List Nat), (∀ j ∈ l, j < row.length) →
      l.filterMap (fun j => row[j]?) = l.map (fun j => row[j]?.getD 0) := by
    intro l
    induction l with
    | nil => intro _; rfl
    | cons a l ih =>
      intro hl
      have ha : a < row.length := hl a (by simp)
      rw [List.filterMap_cons, List.getElem?_eq_getElem ha]
      simp only [List.map_cons, List.getElem?_eq_getElem ha, Option.getD_some]
      rw [ih (fun j hj => hl j (List.mem_cons_of_mem _ hj))]
  have he := hfm idx (fun j hj => by rw [hr]; exact hlt j hj)
  refine ⟨idx.map (fun j => row[j]?.getD 0), ?_, by simp [hlen], ?_⟩
  · simp only [getSwizzle, List.getElem?_map, hrow, Option.map_some, he]
  · intro p j hp
    have hj : j < row.length := by rw [hr]; exact hlt j (List.mem_of_getElem? hp)
    simp [hp, List.getElem?_eq_getElem hj]

example : getAttr vec4Names [[1, 2, 3, 4], [5, 6, 7, 8]] "zx".toList = .ok [[3, 1], [7, 5]] := by
  decide +kernel

/-- A number is given to all the named components. -/
theorem swizzle_write_number {k len : Nat} {Z : Rows} {idx : List Nat} (x : ℚ)
    (hZ : IsRows k Z) (hn : idx.Nodup) (hk : ∀ j ∈ idx, j < k) :
    ∃ Z', setSwizzle len Z idx (.scalar x) = .ok Z' ∧
      Written Z idx (idx.map (fun _ => List.replicate Z.length x)) Z' := by
  have hf := foldlM_assign Z idx (fun j => j) (fun _ => .scalar x)
    (fun _ => List.replicate Z.length x)
    (fun j _ Y hY => by simp [assignCol, hY]) (fun _ _ => by simp)
  have hw := foldl_setCol_written k Z hZ (idx.map (fun j => (j, List.replicate Z.length x)))
    (by simpa [List.map_map, Function.comp_def] using hn)
    (by intro p hp; obtain ⟨j, hj, rfl⟩ := List.mem_map.1 hp; exact hk j hj)
    (by intro p hp; obtain ⟨j, hj, rfl⟩ := List.mem_map.1 hp; simp)
  refine ⟨_, hf, ?_⟩
  have := hw.1
  simpa [List.map_map, Function.comp_def] using this

example : setSwizzle 2 [[1, 2, 3], [4, 5, 6]] [2, 0] (.scalar 9) = .ok [[9, 2, 9], [9, 5, 9]] := by
  decide +kernel

/-- One number for each named component, when there are not as many vectors as numbers. -/
theorem swizzle_write_tuple_partial {k len : Nat} {Z : Rows} {idx : List Nat} {xs : List ℚ}
    (hZ : IsRows k Z) (hn : idx.Nodup) (hk : ∀ j ∈ idx, j < k) (hx : xs.length = idx.length)
    (hl : len ≠ idx.length) :
    ∃ Z', setSwizzle len Z idx (.vec xs) = .ok Z' ∧
      Written Z idx (xs.map (fun x => List.replicate Z.length x)) Z' := by
  have hf := foldlM_assign Z (List.range idx.length) (fun i => idx[i]?.getD 0)
    (fun i => (SVal.vec xs).item i) (fun i => List.replicate Z.length (xs[i]?.getD 0))
    (fun i _ Y hY => by simp [assignCol, SVal.item, hY]) (fun _ _ => by simp)
  have e1 : (List.map (fun i => (idx[i]?.getD 0, List.replicate Z.length (xs[i]?.getD 0)))
      (List.range idx.length)).map (·.1) = idx := by
    rw [List.map_map]; exact range_map_getD idx
  have e2 : (List.map (fun i => (idx[i]?.getD 0, List.replicate Z.length (xs[i]?.getD 0)))
      (List.range idx.length)).map (·.2) = xs.map (fun x => List.replicate Z.length x) := by
    apply List.ext_getElem?
    intro i
    by_cases h : i < idx.length
    · have hxi : i < xs.length := by omega
      simp [List.getElem?_range h, List.getElem?_eq_getElem hxi]
    · rw [List.getElem?_eq_none (by simpa using h), List.getElem?_eq_none (by simp; omega)]
  have hw := foldl_setCol_written k Z hZ _ (by rw [e1]; exact hn)
    (by
      intro p hp
      have : p.1 ∈ (List.map (fun i => (idx[i]?.getD 0, List.replicate Z.length (xs[i]?.getD 0)))
        (List.range idx.length)).map (·.1) := List.mem_map_of_mem hp
      rw [e1] at this; exact hk _ this)
    (by intro p hp; obtain ⟨j, hj, rfl⟩ := List.mem_map.1 hp; simp)
  rw [e1, e2] at hw
  refine ⟨_, ?_, hw.1⟩
  unfold setSwizzle
  simp only [SVal.size, hx, if_neg hl, if_true]
  exact hf

example : setSwizzle 3 [[1, 2, 3], [4, 5, 6], [7, 8, 9]] [2, 0] (.vec [10, 20]) =
    .ok [[20, 2, 10], [20, 5, 10], [20, 8, 10]] := by decide +kernel

/-- One number for each vector: all the named components get it. -/
theorem swizzle_write_array {k : Nat} {Z : Rows} {idx : List Nat} {xs : List ℚ}
    (hZ : IsRows k Z) (hn : idx.Nodup) (hk : ∀ j ∈ idx, j < k) (hx : xs.length = Z.length) :
    ∃ Z', setSwizzle Z.length Z idx (.vec xs) = .ok Z' ∧
      Written Z idx (idx.map (fun _ => xs)) Z' := by
  have hf := foldlM_assign Z idx (fun j => j) (fun _ => (SVal.vec xs).squeeze) (fun _ => xs)
    (fun j _ Y hY => by
      match xs, hx with
      | [], hx => simp [SVal.squeeze, assignCol, hY, ← hx]
      | [x], hx => simp [SVal.squeeze, assignCol, hY, ← hx]
      | x :: y :: xs, hx => simp only [SVal.squeeze, assignCol, hY, hx, if_true])
    (fun _ _ => hx)
  have hw := foldl_setCol_written k Z hZ (idx.map (fun j => (j, xs)))
    (by simpa [List.map_map, Function.comp_def] using hn)
    (by intro p hp; obtain ⟨j, hj, rfl⟩ := List.mem_map.1 hp; exact hk j hj)
    (by intro p hp; obtain ⟨j, hj, rfl⟩ := List.mem_map.1 hp; exact hx)
  have hres : setSwizzle Z.length Z idx (.vec xs) =
      .ok ((idx.map (fun j => (j, xs))).foldl (fun Z p => setCol Z p.1 p.2) Z) := by
    unfold setSwizzle
    simp only [SVal.size, hx, if_true]
    exact hf
  refine ⟨_, hres, ?_⟩
  have := hw.1
  simpa [List.map_map, Function.comp_def] using this

example : setSwizzle 3 [[1, 2], [3, 4], [5, 6]] [1] (.vec [10, 20, 30]) =
    .ok [[1, 10], [3, 20], [5, 30]] := by decide +kernel

/-- One vector of the named components for each vector, when there are vectors and not as many as
named components. -/
theorem swizzle_write_vectors_partial {k : Nat} {Z : Rows} {idx : List Nat} {rs : Rows}
    (hZ : IsRows k Z) (hn : idx.Nodup) (hk : ∀ j ∈ idx, j < k) (hm : IsRows idx.length rs)
    (hx : rs.length = Z.length) (h0 : Z.length ≠ 0) (hl : Z.length ≠ idx.length) :
    ∃ Z', setSwizzle Z.length Z idx (.mat idx.length rs) = .ok Z' ∧
      Written Z idx (colsOf idx.length rs) Z' := by
  have hcl : ∀ i : Nat, (rs.map (fun r => r[i]?.getD (0 : ℚ))).length = Z.length := by simp [hx]
  have e1 : (List.map (fun i => (idx[i]?.getD 0, rs.map (fun r => r[i]?.getD (0 : ℚ))))
      (List.range idx.length)).map (·.1) = idx := by
    rw [List.map_map]; exact range_map_getD idx
  have e2 : (List.map (fun i => (idx[i]?.getD 0, rs.map (fun r => r[i]?.getD (0 : ℚ))))
      (List.range idx.length)).map (·.2) = colsOf idx.length rs := by
    rw [List.map_map]; rfl
  have hw := foldl_setCol_written k Z hZ _ (by rw [e1]; exact hn)
    (by
      intro p hp
      have : p.1 ∈ (List.map (fun i => (idx[i]?.getD 0, rs.map (fun r => r[i]?.getD (0 : ℚ))))
        (List.range idx.length)).map (·.1) := List.mem_map_of_mem hp
      rw [e1] at this; exact hk _ this)
    (by intro p hp; obtain ⟨j, hj, rfl⟩ := List.mem_map.1 hp; exact hcl j)
  rw [e1, e2] at hw
  refine ⟨_, ?_, hw.1⟩
  by_cases h1 : idx.length = 1
  · -- a single column is squeezed
    obtain ⟨j, rfl⟩ := List.length_eq_one_iff.1 h1
    unfold setSwizzle
    simp only [SVal.size, List.length_singleton, hx, Nat.mul_one, if_true]
    have hlen : rs.length ≠ 1 := by rw [hx]; simpa using hl
    have hne : rs ≠ [] := by rintro rfl; exact h0 hx.symm
    have hsq : (SVal.mat 1 rs).squeeze = .vec (rs.flatMap id) := by
      match rs, hlen with
      | [], _ => rfl
      | [r], hlen => simp at hlen
      | r :: r' :: rs, _ => rfl
    have hcol : rs.flatMap id = rs.map (fun r => r[0]?.getD 0) := by
      clear e1 e2 hw hcl hsq hne hlen hx
      induction rs with
      | nil => rfl
      | cons r rs ih =>
        have hr : r.length = 1 := hm r (by simp)
        obtain ⟨x, rfl⟩ := List.length_eq_one_iff.1 hr
        rw [List.flatMap_cons, List.map_cons, ih (fun r hr => hm r (List.mem_cons_of_mem _ hr))]
        rfl
    rw [hsq, hcol]
    simp only [List.foldlM_cons, List.foldlM_nil, assignCol, List.length_map, hx, if_true, bind,
      Except.bind, pure, Except.pure]
    rfl
  · have hs : ¬ Z.length = rs.length * idx.length := by
      rw [hx]
      intro he
      have : Z.length * 1 = Z.length * idx.length := by rw [Nat.mul_one]; exact he
      exact h1 (Nat.eq_of_mul_eq_mul_left (Nat.pos_of_ne_zero h0) this).symm
    have hs2 : ¬ idx.length = rs.length := by rw [hx]; exact fun h => hl h.symm
    unfold setSwizzle
    simp only [SVal.size, if_neg hs, if_neg hs2, if_true]
    exact foldlM_assign Z (List.range idx.length) (fun i => idx[i]?.getD 0)
      (fun i => (SVal.mat idx.length rs).column i) (fun i => rs.map (fun r => r[i]?.getD 0))
      (fun i _ Y hY => by simp [assignCol, SVal.column, hY, hx])
      (fun i _ => hcl i)

example : setSwizzle 3 [[1, 2, 3], [4, 5, 6], [7, 8, 9]] [2, 0] (.mat 2 [[1, 2], [3, 4], [5, 6]]) =
    .ok [[2, 2, 1], [4, 5, 3], [6, 8, 5]] := by decide +kernel

/-- One column for each named component. -/
theorem swizzle_write_columns {k : Nat} {Z : Rows} {idx : List Nat} {cs : List (List ℚ)}
    (hZ : IsRows k Z) (hn : idx.Nodup) (hk : ∀ j ∈ idx, j < k) (hm : IsRows Z.length cs)
    (hx : cs.length = idx.length) (h0 : Z.length ≠ 0) :
    ∃ Z', setSwizzle Z.length Z idx (.mat Z.length cs) = .ok Z' ∧ Written Z idx cs Z' := by
  have hget : ∀ i, i < idx.length → (cs[i]?.getD []).length = Z.length := by
    intro i hi
    have : i < cs.length := by omega
    rw [List.getElem?_eq_getElem this]
    exact hm _ (List.getElem_mem this)
  have e1 : (List.map (fun i => (idx[i]?.getD 0, cs[i]?.getD []))
      (List.range idx.length)).map (·.1) = idx := by
    rw [List.map_map]; exact range_map_getD idx
  have e2 : (List.map (fun i => (idx[i]?.getD 0, cs[i]?.getD []))
      (List.range idx.length)).map (·.2) = cs := by
    apply List.ext_getElem?
    intro i
    by_cases h : i < idx.length
    · have hxi : i < cs.length := by omega
      simp [List.getElem?_range h, List.getElem?_eq_getElem hxi]
    · rw [List.getElem?_eq_none (by simpa using h), List.getElem?_eq_none (by omega)]
  have hw := foldl_setCol_written k Z hZ _ (by rw [e1]; exact hn)
    (by
      intro p hp
      have : p.1 ∈ (List.map (fun i => (idx[i]?.getD 0, cs[i]?.getD []))
        (List.range idx.length)).map (·.1) := List.mem_map_of_mem hp
      rw [e1] at this; exact hk _ this)
    (by
      intro p hp
      obtain ⟨j, hj, rfl⟩ := List.mem_map.1 hp
      exact hget j (List.mem_range.1 hj))
  rw [e1, e2] at hw
  refine ⟨_, ?_, hw.1⟩
  by_cases h1 : idx.length = 1
  · obtain ⟨j, rfl⟩ := List.length_eq_one_iff.1 h1
    obtain ⟨c, rfl⟩ := List.length_eq_one_iff.1 (hx.trans rfl)
    have hc : c.length = Z.length := hm c (by simp)
    unfold setSwizzle
    simp only [SVal.size, List.length_singleton, Nat.one_mul, if_true]
    by_cases hz : Z.length = 1
    · rw [hz] at hc
      obtain ⟨x, rfl⟩ := List.length_eq_one_iff.1 hc
      rw [hz]
      simp only [SVal.squeeze, List.foldlM_cons, List.foldlM_nil, assignCol, hz, bind,
        Except.bind, pure, Except.pure, List.replicate]
      rfl
    · have hsq : (SVal.mat Z.length [c]).squeeze = .vec c := squeeze_row hz
      rw [hsq]
      simp only [List.foldlM_cons, List.foldlM_nil, assignCol, hc, if_true, bind, Except.bind,
        pure, Except.pure]
      rfl
  · have hs : ¬ Z.length = cs.length * Z.length := by
      rw [hx]
      intro he
      have : 1 * Z.length = idx.length * Z.length := by rw [Nat.one_mul]; exact he
      exact h1 (Nat.eq_of_mul_eq_mul_right (Nat.pos_of_ne_zero h0) this).symm
    unfold setSwizzle
    simp only [SVal.size, if_neg hs]
    rw [if_pos hx.symm]
    exact foldlM_assign Z (List.range idx.length) (fun i => idx[i]?.getD 0)
      (fun i => (SVal.mat Z.length cs).item i) (fun i => cs[i]?.getD [])
      (fun i hi Y hY => by
        have := hget i (List.mem_range.1 hi)
        simp only [assignCol, SVal.item, hY, this, if_true])
      (fun i hi => hget i (List.mem_range.1 hi))

example : setSwizzle 2 [[1, 2, 3], [4, 5, 6]] [2, 0] (.mat 2 [[10, 20], [30, 40]]) =
    .ok [[30, 2, 10], [40, 5, 20]] := by decide +kernel

/-- What was written is read back through the same name. -/
theorem swizzle_read_back {k : Nat} {names : List (List Char)} {key : List Char} {idx : List Nat}
    {Z Z' : Rows} {cols : List (List ℚ)} (hZ : IsRows k Z) (hk : ∀ s ∈ names, s.length = k)
    (h : swizzleIndices names key = some idx) (hw : Written Z idx cols Z')
    (hl : cols.length = idx.length) :
    ∃ R, getAttr names Z' key = .ok R ∧ ∀ (i p : Nat) c, cols[p]? = some c → i < Z.length →
      (R[i]?).bind (fun r => r[p]?) = c[i]? := by
  obtain ⟨_, _, _, hlt, _, _⟩ := swizzle_names h hk
  refine ⟨getSwizzle Z' idx, by simp [getAttr, h], ?_⟩
  exact written_reads hw hZ hlt hl

example : getAttr vec3Names [[30, 2, 10], [40, 5, 20]] "zx".toList = .ok [[10, 30], [20, 40]] := by
  decide +kernel

/-- Writing two components of two vectors: the numbers go to the vectors, not to the components;
vectors are transposed; a single vector of four refuses four numbers; a name of no notation is
not refused, and changes nothing; and a component named twice keeps the last. -/
theorem swizzle_writes_fails :
    setAttr vec2Names 2 [[0, 0], [0, 0]] "xy".toList (.vec [1, 2]) = .ok [[1, 1], [2, 2]] ∧
    setAttr vec2Names 2 [[1, 2], [3, 4]] "xy".toList (.mat 2 [[1, 2], [3, 4]]) =
      .ok [[1, 3], [2, 4]] ∧
    setAttr vec4Names 4 [[0, 0, 0, 0]] "xyzw".toList (.vec [1, 2, 3, 4]) = .error .valueError ∧
    setAttr vec4Names 3 [[0, 0, 0, 0], [0, 0, 0, 0], [0, 0, 0, 0]] "xyba".toList
      (.vec [1, 2, 3, 4]) = .ok [[0, 0, 0, 0], [0, 0, 0, 0], [0, 0, 0, 0]] ∧
    setAttr vec2Names 1 [[0, 0]] "xx".toList (.vec [1, 2]) = .ok [[2, 0]] ∧
    setAttr vec2Names 0 [] "xy".toList (.mat 2 []) = .error .valueError := by decide +kernel

/-! ### C39 -/

/-- Extension adds z = 0 and w = 1. -/
theorem extend_adds (int : Bool) (rs : Rows) :
    toVec3 (.rows int 2 rs) = .ok (rs.map (fun r => r ++ [0])) ∧
    toVec4 (.rows int 2 rs) = .ok (rs.map (fun r => r ++ [0, 1])) ∧
    toVec4 (.rows int 3 rs) = .ok (rs.map (fun r => r ++ [1])) := by
  simp [toVec3, toVec4]

/-- Extending and dropping back gives the original; from 4 dimensions to 2, of floats. -/
theorem extend_drops_back_partial (int : Bool) (rs : Rows) :
    (IsRows 2 rs → ∃ e, toVec3 (.rows int 2 rs) = .ok e ∧ IsRows 3 e ∧
      toVec2 (.rows int 3 e) = .ok rs) ∧
    (IsRows 2 rs → ∃ e, toVec4 (.rows int 2 rs) = .ok e ∧ IsRows 4 e ∧
      toVec2 (.rows false 4 e) = .ok rs) ∧
    (IsRows 3 rs → ∃ e, toVec4 (.rows false 3 rs) = .ok e ∧ IsRows 4 e ∧
      toVec3 (.rows false 4 e) = .ok rs) := by
  refine ⟨fun h => ?_, fun h => ?_, fun h => ?_⟩
  · refine ⟨_, (extend_adds int rs).1, ?_, ?_⟩
    · intro r hr
      obtain ⟨r', hr', rfl⟩ := List.mem_map.1 hr
      simp [h r' hr']
    · simp only [toVec2, List.map_map]
      rw [if_pos (Or.inr trivial)]
      congr 1
      refine (List.map_congr_left (fun r hr => ?_)).trans (List.map_id _)
      simp [h r hr]
  · refine ⟨_, (extend_adds int rs).2.1, ?_, ?_⟩
    · intro r hr
      obtain ⟨r', hr', rfl⟩ := List.mem_map.1 hr
      simp [h r' hr']
    · simp only [toVec2, List.map_map]
      rw [if_neg (by omega)]
      simp only [if_true, Bool.false_eq_true, if_false]
      congr 1
      refine (List.map_congr_left (fun r hr => ?_)).trans (List.map_id _)
      obtain ⟨x, y, rfl⟩ := List.length_eq_two.1 (h r hr)
      simp
  · refine ⟨_, (extend_adds false rs).2.2, ?_, ?_⟩
    · intro r hr
      obtain ⟨r', hr', rfl⟩ := List.mem_map.1 hr
      simp [h r' hr']
    · simp only [toVec3, List.map_map]
      simp only [show ¬ (4 : Nat) = 2 by omega, show ¬ (4 : Nat) = 3 by omega, if_false, if_true,
        Bool.false_eq_true]
      congr 1
      refine (List.map_congr_left (fun r hr => ?_)).trans (List.map_id _)
      obtain ⟨x, y, z, rfl⟩ := List.length_eq_three.1 (h r hr)
      simp

example : toVec4 (.rows false 2 [[1, 2], [3, 4]]) = .ok [[1, 2, 0, 1], [3, 4, 0, 1]] ∧
    toVec2 (.rows false 4 [[1, 2, 0, 1], [3, 4, 0, 1]]) = .ok [[1, 2], [3, 4]] := by
  decide +kernel

/-- Reduction of floats from 4 dimensions divides by w. -/
theorem reduce_divides {rs : Rows} (h : IsRows 4 rs) :
    (∃ e, toVec3 (.rows false 4 rs) = .ok e ∧ e.length = rs.length ∧
      ∀ (i : Nat) x y z w, rs[i]? = some [x, y, z, w] → e[i]? = some [x / w, y / w, z / w]) ∧
    (∃ e, toVec2 (.rows false 4 rs) = .ok e ∧ e.length = rs.length ∧
      ∀ (i : Nat) x y z w, rs[i]? = some [x, y, z, w] → e[i]? = some [x / w, y / w]) := by
  constructor
  · refine ⟨_, by simp [toVec3]; rfl, by simp, ?_⟩
    intro i x y z w hi
    simp [List.getElem?_map, hi]
  · refine ⟨_, by simp [toVec2]; rfl, by simp, ?_⟩
    intro i x y z w hi
    simp [List.getElem?_map, hi]

example : toVec3 (.rows false 4 [[2, 4, 6, 2]]) = .ok [[1, 2, 3]] := by decide +kernel

/-- Reduced points, extended again, stand for the same point. -/
theorem reduce_extends_back {x y z w : ℚ} (hw : w ≠ 0) :
    ∃ e f, toVec3 (.rows false 4 [[x, y, z, w]]) = .ok e ∧ toVec4 (.rows false 3 e) = .ok f ∧
      f.map (fun r => r.map (fun t => w * t)) = [[x, y, z, w]] := by
  refine ⟨[[x / w, y / w, z / w]], [[x / w, y / w, z / w, 1]], by simp [toVec3],
    by simp [toVec4], ?_⟩
  simp only [List.map_cons, List.map_nil, mul_one, mul_div_cancel₀ _ hw]

example : toVec4 (.rows false 3 [[1, 2, 3]]) = .ok [[1, 2, 3, 1]] := by decide +kernel

/-- A flat array of `m·k` numbers is taken in groups of `k`. -/
theorem flat_groups {k m : Nat} {xs : List ℚ} (h0 : 0 < k) (h : xs.length = m * k) :
    (groups k xs).flatten = xs ∧ (groups k xs).length = m ∧ IsRows k (groups k xs) := by
  have hdiv : xs.length / k = m := by rw [h]; exact Nat.mul_div_cancel _ h0
  unfold groups
  rw [hdiv]
  refine ⟨?_, by simp, ?_⟩
  · clear hdiv
    have : ∀ m : Nat, m * k ≤ xs.length →
        ((List.range m).map (fun i => (xs.drop (i * k)).take k)).flatten = xs.take (m * k) := by
      intro m
      induction m with
      | zero => simp
      | succ m ih =>
        intro hm
        have hm' : m * k ≤ xs.length := by rw [Nat.succ_mul] at hm; omega
        rw [List.range_succ, List.map_append, List.flatten_append, ih hm']
        simp only [List.map_cons, List.map_nil, List.flatten_cons, List.flatten_nil,
          List.append_nil]
        rw [Nat.succ_mul, List.take_add]
    rw [this m (by omega), List.take_of_length_le (by omega)]
  · intro r hr
    obtain ⟨i, hi, rfl⟩ := List.mem_map.1 hr
    rw [List.mem_range] at hi
    rw [List.length_take, List.length_drop, h]
    have : (i + 1) * k ≤ m * k := Nat.mul_le_mul_right k hi
    rw [Nat.succ_mul] at this
    omega

/-- Flat arrays are grouped, or refused when they do not divide. -/
theorem flat_converts (xs : List ℚ) :
    toVec2 (.flat xs) = (if 2 ∣ xs.length then .ok (groups 2 xs) else .error .typeError) ∧
    toVec3 (.flat xs) = (if 3 ∣ xs.length then .ok (groups 3 xs) else .error .typeError) ∧
    toVec4 (.flat xs) = (if 4 ∣ xs.length then .ok (groups 4 xs) else .error .typeError) := by
  simp only [toVec2, toVec3, toVec4, Nat.dvd_iff_mod_eq_zero, and_self]

example : toVec2 (.flat [1, 2, 3, 4]) = .ok [[1, 2], [3, 4]] ∧
    toVec3 (.flat [1, 2, 3, 4]) = .error .typeError := by decide +kernel

/-- Arrays of vectors of other dimensions are refused. -/
theorem convert_refused (int : Bool) {k : Nat} (hk : k < 2 ∨ 4 < k) (rs : Rows) :
    toVec2 (.rows int k rs) = .error .typeError ∧ toVec3 (.rows int k rs) = .error .typeError ∧
    toVec4 (.rows int k rs) = .error .typeError := by
  refine ⟨?_, ?_, ?_⟩
  · simp only [toVec2]; rw [if_neg (by omega), if_neg (by omega)]
  · simp only [toVec3]; rw [if_neg (by omega), if_neg (by omega), if_neg (by omega)]
  · simp only [toVec4]; rw [if_neg (by omega), if_neg (by omega), if_neg (by omega)]

example : toVec3 (.rows false 5 [[1, 2, 3, 4, 5]]) = .error .typeError := by decide +kernel

/-- Integer vectors are not divided by w but truncated, and cannot go from 4 dimensions back to
2; a single vector of 4 is cut in two instead of being projected. -/
theorem convert_fails :
    toVec3 (.rows true 4 [[1, -3, 5, 2]]) = .ok [[0, -1, 2]] ∧
    (toVec4 (.rows true 2 [[1, 2]]) = .ok [[1, 2, 0, 1]] ∧
      toVec2 (.rows true 4 [[1, 2, 0, 1]]) = .error .typeError) ∧
    toVec2 (.flat [4, 6, 0, 2]) = .ok [[4, 6], [0, 2]] ∧
    toVec2 (.rows false 4 [[4, 6, 0, 2]]) = .ok [[2, 3]] := by decide +kernel

end Verif
