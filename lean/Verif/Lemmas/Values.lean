import Verif.Spec.Values
import Verif.Lemmas.Py
import Mathlib.Tactic.Ring
import Mathlib.Tactic.FieldSimp
import Mathlib.Tactic.Linarith
import Mathlib.Tactic.NormNum

namespace Verif

theorem bcast1_mul_scale (c : ℚ) (a b : List ℚ) :
    bcast1 (· * ·) a (b.map (c * ·)) = (bcast1 (· * ·) a b).map (List.map (c * ·)) := by
  unfold bcast1
  by_cases h : a.length = b.length
  · rw [if_pos (by simpa using h), if_pos h]
    simp only [Except.map]
    congr 1
    rw [List.zipWith_map_right, List.map_zipWith]
    congr 1
    funext x y
    ring
  · rw [if_neg (by simpa using h), if_neg h]
    match a, b with
    | [], [] => simp at h
    | [], [y] => simp [Except.map]
    | [], y :: y' :: ys => simp [Except.map]
    | [x], [] => simp [Except.map]
    | [x], [y] => simp at h
    | [x], y :: y' :: ys =>
      simp only [List.map_cons, List.map_map, Except.map, Except.ok.injEq, List.cons.injEq]
      refine ⟨by ring, by ring, List.map_congr_left (fun a _ => ?_)⟩
      simp only [Function.comp]
      ring
    | x :: x' :: xs, [] => simp [Except.map]
    | x :: x' :: xs, [y] => simp [Except.map]; refine ⟨by ring, by ring, fun a _ => by ring⟩
    | x :: x' :: xs, y :: y' :: ys => simp [Except.map]

theorem mapM_except_map {α β γ : Type} (f : α → Except Err β) (g : β → γ) (xs : List α) :
    xs.mapM (fun x => (f x).map g) = (xs.mapM f).map (List.map g) := by
  induction xs with
  | nil => rfl
  | cons x xs ih =>
    rw [List.mapM_cons, List.mapM_cons, ih]
    cases f x with
    | error e => rfl
    | ok y => cases xs.mapM f <;> rfl

theorem bcastRows_mul_scale (c : ℚ) (x : List ℚ) (b : List (List ℚ)) :
    bcastRows (· * ·) [x] (b.map (List.map (c * ·))) =
      (bcastRows (· * ·) [x] b).map (List.map (List.map (c * ·))) := by
  unfold bcastRows
  by_cases h : [x].length = b.length
  · rw [if_pos (by simpa using h), if_pos h]
    match b, h with
    | [y], _ =>
      have := bcast1_mul_scale c x y
      simp only [List.map_cons, List.map_nil, List.zip_cons_cons, List.zip_nil_left, List.mapM_cons,
        List.mapM_nil]
      rw [this]
      cases bcast1 (· * ·) x y <;> rfl
  · rw [if_neg (by simpa using h), if_neg h]
    dsimp only
    rw [List.mapM_map]
    simp only [Function.comp_def, bcast1_mul_scale]
    exact mapM_except_map _ _ b

theorem scaleVal_scaleBy (s : ℚ × ℚ × ℚ) (c : ℚ) (v : TVal) :
    scaleVal s (v.scaleBy c) = (scaleVal s v).map (TVal.scaleBy c) := by
  cases v with
  | num x => simp only [TVal.scaleBy, scaleVal, Except.map]; congr 2; ring
  | vec xs =>
    simp only [TVal.scaleBy, scaleVal, List.length_map]
    split
    · simp only [Except.map, TVal.scaleBy, List.map_map]
      congr 2
      apply List.map_congr_left
      intro a _
      simp only [Function.comp]
      ring
    · split <;>
      · simp only [bcast, bcast1_mul_scale]
        cases bcast1 (· * ·) _ xs <;> rfl
  | mat k rows =>
    simp only [TVal.scaleBy, scaleVal]
    split
    · simp only [Except.map, TVal.scaleBy, List.map_map]
      congr 2
      apply List.map_congr_left
      intro a _
      simp only [Function.comp, List.map_map]
      apply List.map_congr_left
      intro a _
      simp only [Function.comp]
      ring
    · split <;>
      · simp only [bcast, bcastMat, bcastRows_mul_scale]
        split
        · cases bcastRows (· * ·) _ rows <;> rfl
        · rfl
  | recs cols => rfl

theorem scaleBy_scaleBy (a b : ℚ) (v : TVal) : (v.scaleBy b).scaleBy a = v.scaleBy (a * b) := by
  cases v with
  | num x => simp only [TVal.scaleBy]; congr 1; ring
  | vec xs =>
    simp only [TVal.scaleBy, List.map_map]
    congr 1
    apply List.map_congr_left
    intro x _
    simp only [Function.comp]
    ring
  | mat k rows =>
    simp only [TVal.scaleBy, List.map_map]
    congr 1
    apply List.map_congr_left
    intro x _
    simp only [Function.comp, List.map_map]
    apply List.map_congr_left
    intro x _
    simp only [Function.comp]
    ring
  | recs cols => rfl

theorem scaleBy_one (v : TVal) : v.scaleBy 1 = v := by
  cases v <;> simp [TVal.scaleBy]

/-- A measure of a scaled value, all units but the pixel. -/
theorem measureVal_scale (m : MVars) {u u' : MUnit} {c : ℚ} (hu : u ≠ .pixel) (hu' : u' ≠ .pixel)
    (hf : ∀ d, u.factor d = u'.factor d * c) (v : TVal) :
    measureVal m u v = measureVal m u' (v.scaleBy c) := by
  unfold measureVal
  cases m.scale with
  | error e => rfl
  | ok s =>
    dsimp only
    rw [scaleVal_scaleBy]
    cases scaleVal s v with
    | error e => rfl
    | ok r =>
      simp only [Except.map]
      cases m.resolution with
      | none => cases u <;> cases u' <;> simp at hu hu' <;> rfl
      | some d =>
        have : r.scaleBy (u.factor d) = (r.scaleBy c).scaleBy (u'.factor d) := by
          rw [scaleBy_scaleBy, hf]
        cases u <;> cases u' <;> simp at hu hu' <;> exact congrArg Except.ok this

theorem scaleVal_row2 (s : ℚ × ℚ × ℚ) (x y : ℚ) :
    scaleVal s (.vec [x, y]) = .ok (.vec [s.1 * x, s.2.1 * y]) := by
  simp [scaleVal, bcast, bcast1]

theorem scaleVal_row3 (s : ℚ × ℚ × ℚ) (x y z : ℚ) :
    scaleVal s (.vec [x, y, z]) = .ok (.vec [s.1 * x, s.2.1 * y, s.2.2 * z]) := by
  simp [scaleVal, bcast, bcast1]

theorem mapM_ok_of_forall {α β : Type} {f : α → Except Err β} {g : α → β} {xs : List α}
    (h : ∀ x ∈ xs, f x = .ok (g x)) : xs.mapM f = .ok (xs.map g) := by
  induction xs with
  | nil => rfl
  | cons x xs ih =>
    rw [List.mapM_cons, h x (by simp), ih (fun y hy => h y (by simp [hy]))]
    rfl

theorem bcastRows_one {f : ℚ → ℚ → ℚ} {a : List ℚ} {g : List ℚ → List ℚ} {rows : List (List ℚ)}
    (h : ∀ r ∈ rows, bcast1 f a r = .ok (g r)) : bcastRows f [a] rows = .ok (rows.map g) := by
  unfold bcastRows
  split
  · rename_i hl
    match rows, hl with
    | [r], _ =>
      have := h r (by simp)
      simp [this]
  · exact mapM_ok_of_forall h

theorem scaleVal_mat (s : ℚ × ℚ × ℚ) {k : Nat} (hk : k = 2 ∨ k = 3) {rows : List (List ℚ)}
    (hr : ∀ r ∈ rows, r.length = k) :
    scaleVal s (.mat k rows) = .ok (.mat k (rows.map (scaleRow s.1 s.2.1 s.2.2))) := by
  have key : ∀ r ∈ rows, bcast1 (· * ·) (if k = 2 then [s.1, s.2.1] else [s.1, s.2.1, s.2.2]) r =
      .ok (scaleRow s.1 s.2.1 s.2.2 r) := by
    intro r hr'
    have hl := hr r hr'
    rcases hk with rfl | rfl
    · match r, hl with
      | [x, y], _ => simp [bcast1, scaleRow]
    · match r, hl with
      | [x, y, z], _ => simp [bcast1, scaleRow]
  rcases hk with rfl | rfl
  · simp only [scaleVal, bcast, bcastMat]
    rw [if_neg (by decide), if_pos trivial, if_pos (by simp),
      bcastRows_one (g := scaleRow s.1 s.2.1 s.2.2) (by simpa using key)]
    rfl
  · simp only [scaleVal, bcast, bcastMat]
    rw [if_neg (by decide), if_neg (by decide), if_pos (by simp),
      bcastRows_one (g := scaleRow s.1 s.2.1 s.2.2) (by simpa using key)]
    rfl

/-- What a measure does to rows, one by one. -/
theorem scaleVal_rows (s : ℚ × ℚ × ℚ) {k : Nat} (hk : k = 1 ∨ k = 2 ∨ k = 3) :
    ∃ g : List ℚ → List ℚ, (∀ r : List ℚ, r.length = k → scaleVal s (.vec r) = .ok (.vec (g r))) ∧
      ∀ rows : List (List ℚ), (∀ r ∈ rows, r.length = k) →
        scaleVal s (.mat k rows) = .ok (.mat k (rows.map g)) := by
  rcases hk with rfl | hk
  · exact ⟨List.map (s.1 * ·), fun r h => by simp [scaleVal, h], fun rows _ => by simp [scaleVal]⟩
  · refine ⟨scaleRow s.1 s.2.1 s.2.2, fun r h => ?_, fun rows h => scaleVal_mat s hk h⟩
    rcases hk with rfl | rfl
    · match r, h with
      | [x, y], _ => simp [scaleVal, bcast, bcast1, scaleRow]
    · match r, h with
      | [x, y, z], _ => simp [scaleVal, bcast, bcast1, scaleRow]

/-- No measure of rows of other lengths. -/
theorem scaleVal_odd (s : ℚ × ℚ × ℚ) {k : Nat} (h1 : k ≠ 1) (h2 : k ≠ 2) (h3 : k ≠ 3) :
    (∀ r : List ℚ, r.length = k → scaleVal s (.vec r) = .error .valueError) ∧
      ∀ rows : List (List ℚ), scaleVal s (.mat k rows) = .error .valueError := by
  constructor
  · intro r h
    simp only [scaleVal, h, h1, h2, if_false, bcast]
    have : bcast1 (· * ·) [s.1, s.2.1, s.2.2] r = .error .valueError := by
      unfold bcast1
      rw [if_neg (by simp [h]; omega)]
      match r, h with
      | [], _ => rfl
      | [_], h => simp at h; omega
      | _ :: _ :: _, _ => rfl
    rw [this]
  · intro rows
    simp only [scaleVal, h1, h2, if_false, bcast, bcastMat]
    rw [if_neg (by simp; omega)]

theorem forall2_iff_map {α β : Type} {R : α → β → Prop} {g : α → β} {xs : List α} {ys : List β}
    (h : ∀ x ∈ xs, ∀ y, R x y ↔ y = g x) : List.Forall₂ R xs ys ↔ ys = xs.map g := by
  induction xs generalizing ys with
  | nil => simp
  | cons x xs ih =>
    cases ys with
    | nil => simp
    | cons y ys =>
      rw [List.forall₂_cons, h x (by simp), ih (fun z hz => h z (by simp [hz]))]
      simp

/-! ### Minimum and maximum -/

theorem foldl_min_le (xs : List ℚ) : ∀ a, xs.foldl min a ≤ a ∧ (∀ x ∈ xs, xs.foldl min a ≤ x) ∧
    (xs.foldl min a = a ∨ xs.foldl min a ∈ xs) := by
  induction xs with
  | nil => intro a; simp
  | cons y ys ih =>
    intro a
    obtain ⟨h1, h2, h3⟩ := ih (min a y)
    simp only [List.foldl_cons]
    refine ⟨le_trans h1 (min_le_left _ _), ?_, ?_⟩
    · intro x hx
      rcases List.mem_cons.1 hx with rfl | hx
      · exact le_trans h1 (min_le_right _ _)
      · exact h2 x hx
    · rcases h3 with h3 | h3
      · rcases min_choice a y with h | h
        · left; rw [h3, h]
        · right; rw [h3, h]; simp
      · right; simp [h3]

theorem foldl_max_ge (xs : List ℚ) : ∀ a, a ≤ xs.foldl max a ∧ (∀ x ∈ xs, x ≤ xs.foldl max a) ∧
    (xs.foldl max a = a ∨ xs.foldl max a ∈ xs) := by
  induction xs with
  | nil => intro a; simp
  | cons y ys ih =>
    intro a
    obtain ⟨h1, h2, h3⟩ := ih (max a y)
    simp only [List.foldl_cons]
    refine ⟨le_trans (le_max_left _ _) h1, ?_, ?_⟩
    · intro x hx
      rcases List.mem_cons.1 hx with rfl | hx
      · exact le_trans (le_max_right _ _) h1
      · exact h2 x hx
    · rcases h3 with h3 | h3
      · rcases max_choice a y with h | h
        · left; rw [h3, h]
        · right; rw [h3, h]; simp
      · right; simp [h3]

theorem listMin_spec {xs : List ℚ} {m : ℚ} (h : IsMin xs m) : listMin xs = .ok m := by
  cases xs with
  | nil => cases h.1
  | cons x xs =>
    obtain ⟨h1, h2, h3⟩ := foldl_min_le xs x
    simp only [listMin]
    congr 1
    apply le_antisymm
    · rcases List.mem_cons.1 h.1 with rfl | hm
      · exact h1
      · exact h2 m hm
    · rcases h3 with h3 | h3
      · rw [h3]; exact h.2 x (by simp)
      · exact h.2 _ (by simp [h3])

theorem listMax_spec {xs : List ℚ} {m : ℚ} (h : IsMax xs m) : listMax xs = .ok m := by
  cases xs with
  | nil => cases h.1
  | cons x xs =>
    obtain ⟨h1, h2, h3⟩ := foldl_max_ge xs x
    simp only [listMax]
    congr 1
    apply le_antisymm
    · rcases h3 with h3 | h3
      · rw [h3]; exact h.2 x (by simp)
      · exact h.2 _ (by simp [h3])
    · rcases List.mem_cons.1 h.1 with rfl | hm
      · exact h1
      · exact h2 m hm

/-! ### Components -/

theorem npGet_nat {α : Type} {xs : List α} {i : Nat} {x : α} (h : xs[i]? = some x) :
    npGet xs i = .ok x := by
  unfold npGet
  have h1 : ¬ ((i : Int) < 0) := by omega
  simp [h1, h]

theorem getElem_isColumn {rows : List (List ℚ)} {i k : Nat} (hk : i < k)
    (hr : ∀ r ∈ rows, r.length = k) :
    ∃ ys, rows.mapM (npGet · (i : Int)) = .ok ys ∧ IsColumn rows i ys := by
  induction rows with
  | nil => exact ⟨[], rfl, rfl, by simp⟩
  | cons r rs ih =>
    obtain ⟨ys, h1, h2, h3⟩ := ih (fun r' h' => hr r' (by simp [h']))
    have hl := hr r (by simp)
    refine ⟨r[i] :: ys, ?_, by simp [h2], ?_⟩
    · rw [List.mapM_cons, npGet_nat (List.getElem?_eq_getElem (by omega)), h1]
      rfl
    · intro j row hj
      cases j with
      | zero => simp at hj; subst hj; simp [hl, hk]
      | succ j => simpa using h3 j row (by simpa using hj)

theorem swizzleIndex_named {c : Char} {i : Nat} (h : named c = some i) :
    "xyzw".toList.findIdx? (· == c) = some i ∨
    ("xyzw".toList.findIdx? (· == c) = none ∧ "rgba".toList.findIdx? (· == c) = some i) := by
  unfold named at h
  split at h <;> simp at h <;> subst h <;> decide

theorem swizzle_xyzw : ∀ {key : List Char} {ix : List Nat}, (∀ c ∈ key, c ∈ ['x', 'y', 'z', 'w']) →
    key.map named = ix.map some → swizzleIndex key "xyzw".toList = some ix
  | [], [], _, _ => rfl
  | [], _ :: _, _, h => by simp at h
  | _ :: _, [], _, h => by simp at h
  | c :: key, i :: ix, hn, h => by
    simp only [List.map_cons, List.cons.injEq] at h
    have ih := swizzle_xyzw (fun c m => hn c (by simp [m])) h.2
    have hc := hn c (by simp)
    have h0 : "xyzw".toList.findIdx? (· == c) = some i := by
      have h1 := h.1
      simp only [List.mem_cons, List.not_mem_nil, or_false] at hc
      rcases hc with rfl | rfl | rfl | rfl <;> (simp only [named, Option.some.injEq] at h1; subst h1; decide)
    unfold swizzleIndex at ih ⊢
    rw [List.mapM_cons, h0, ih]
    rfl

theorem swizzle_rgba : ∀ {key : List Char} {ix : List Nat}, (∀ c ∈ key, c ∈ ['r', 'g', 'b', 'a']) →
    key.map named = ix.map some → swizzleIndex key "rgba".toList = some ix
  | [], [], _, _ => rfl
  | [], _ :: _, _, h => by simp at h
  | _ :: _, [], _, h => by simp at h
  | c :: key, i :: ix, hn, h => by
    simp only [List.map_cons, List.cons.injEq] at h
    have ih := swizzle_rgba (fun c m => hn c (by simp [m])) h.2
    have hc := hn c (by simp)
    have h0 : "rgba".toList.findIdx? (· == c) = some i := by
      have h1 := h.1
      simp only [List.mem_cons, List.not_mem_nil, or_false] at hc
      rcases hc with rfl | rfl | rfl | rfl <;> (simp only [named, Option.some.injEq] at h1; subst h1; decide)
    unfold swizzleIndex at ih ⊢
    rw [List.mapM_cons, h0, ih]
    rfl

theorem swizzle_none {key swz : List Char} (h : ∃ c ∈ key, c ∉ swz) : swizzleIndex key swz = none := by
  unfold swizzleIndex
  induction key with
  | nil => obtain ⟨c, hc, -⟩ := h; cases hc
  | cons d key ih =>
    obtain ⟨c, hc, hs⟩ := h
    rw [List.mapM_cons]
    rcases List.mem_cons.1 hc with rfl | hc
    · have : swz.findIdx? (· == c) = none := by
        rw [List.findIdx?_eq_none_iff]
        intro x hx
        simp only [beq_eq_false_iff_ne]
        rintro rfl
        exact hs hx
      rw [this]
      rfl
    · rw [ih ⟨c, hc, hs⟩]
      cases swz.findIdx? (· == d) <;> rfl

theorem outIndex_named {key : List Char} {ix : List Nat}
    (hn : (∀ c ∈ key, c ∈ ['x', 'y', 'z', 'w']) ∨ ∀ c ∈ key, c ∈ ['r', 'g', 'b', 'a'])
    (h : key.map named = ix.map some) : outIndex key = some ix := by
  rcases hn with hn | hn
  · simp only [outIndex, swizzle_xyzw hn h]
  · cases key with
    | nil => simp only [outIndex, swizzle_xyzw (key := []) (by simp) h]
    | cons c key =>
      have hx : swizzleIndex (c :: key) "xyzw".toList = none := by
        apply swizzle_none
        refine ⟨c, by simp, ?_⟩
        have hc := hn c (by simp)
        simp only [List.mem_cons, List.not_mem_nil, or_false] at hc
        rcases hc with rfl | rfl | rfl | rfl <;> decide
      simp only [outIndex, hx, swizzle_rgba hn h]

theorem outIndex_none {key : List Char} (h1 : ∃ c ∈ key, c ∉ ['x', 'y', 'z', 'w'])
    (h2 : ∃ c ∈ key, c ∉ ['r', 'g', 'b', 'a']) : outIndex key = none := by
  have e1 : "xyzw".toList = ['x', 'y', 'z', 'w'] := rfl
  have e2 : "rgba".toList = ['r', 'g', 'b', 'a'] := rfl
  simp only [outIndex, e1, e2, swizzle_none h1, swizzle_none h2]

theorem findSub_named {c : Char} {i : Nat} (h : named c = some i) :
    findSub [c] "xyzw".toList = some i ∨
    (findSub [c] "xyzw".toList = none ∧ findSub [c] "rgba".toList = some i) := by
  unfold named at h
  split at h <;> simp at h <;> subst h <;> decide

end Verif
