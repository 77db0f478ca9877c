import Verif.Spec.Broadcast
import Verif.Lemmas.Values
/-! # C22: arithmetic on arrays -/

namespace Verif

theorem repeated_lt {α : Type} {l : List α} {n i : Nat} (hl : l.length = n ∨ l.length = 1)
    (hi : i < n) : ∃ x, repeated l i = some x ∧ x ∈ l := by
  unfold repeated
  split
  · rename_i h1
    have : 0 < l.length := by omega
    exact ⟨l[0], List.getElem?_eq_getElem this, List.getElem_mem _⟩
  · rename_i h1
    have : i < l.length := by omega
    exact ⟨l[i], List.getElem?_eq_getElem this, List.getElem_mem _⟩

theorem fitDim_some {m n p : Nat} (h : fitDim m n = some p) :
    (m = p ∨ m = 1) ∧ (n = p ∨ n = 1) := by
  unfold fitDim at h
  split at h
  · cases h; omega
  · split at h
    · cases h; omega
    · split at h
      · cases h; omega
      · simp at h

/-- One axis. -/
theorem bcast1_spec (f : ℚ → ℚ → ℚ) (a b : List ℚ) :
    match fitDim a.length b.length with
    | none => bcast1 f a b = .error .valueError
    | some n => ∃ c, bcast1 f a b = .ok c ∧ c.length = n ∧ ∀ j < n, ∀ x y,
        repeated a j = some x → repeated b j = some y → c[j]? = some (f x y) := by
  unfold fitDim bcast1
  by_cases h : a.length = b.length
  · simp only [h, if_true]
    refine ⟨_, rfl, by simp [h], ?_⟩
    intro j hj x y hx hy
    unfold repeated at hx hy
    rw [h] at hx
    split at hx
    · rename_i h1
      rw [if_pos h1] at hy
      have : j = 0 := by omega
      subst this
      simp [List.getElem?_zipWith, hx, hy]
    · rename_i h1
      rw [if_neg h1] at hy
      simp [List.getElem?_zipWith, hx, hy]
  · simp only [if_neg h]
    match a, b, h with
    | [x0], b, h =>
      have hb : b.length ≠ 1 := by simpa [eq_comm] using h
      simp only [List.length_singleton, if_true]
      refine ⟨_, rfl, by simp, ?_⟩
      intro j hj x y hx hy
      simp only [repeated, List.length_singleton, if_true, List.getElem?_cons_zero,
        Option.some.injEq] at hx
      simp only [repeated, if_neg hb] at hy
      subst hx
      simp [List.getElem?_map, hy]
    | [], [y0], h =>
      simp only [List.length_nil, List.length_singleton, if_true]
      exact ⟨_, rfl, by simp, by simp⟩
    | [], [], h => exact absurd rfl h
    | [], y0 :: y1 :: b, h => simp
    | x0 :: x1 :: a, [], h => simp
    | x0 :: x1 :: a, [y0], h =>
      simp only [List.length_singleton, if_true]
      rw [if_neg (by simp)]
      refine ⟨_, rfl, by simp, ?_⟩
      intro j hj x y hx hy
      simp only [repeated, List.length_singleton, if_true, List.getElem?_cons_zero,
        Option.some.injEq] at hy
      simp only [repeated] at hx
      rw [if_neg (by simp)] at hx
      subst hy
      rw [List.getElem?_map, hx]
      rfl
    | x0 :: x1 :: a, y0 :: y1 :: b, h => simp

/-- Rows whose elements can be combined. -/
theorem bcastRows_spec (f : ℚ → ℚ → ℚ) (G : List ℚ → List ℚ → List ℚ) (a b : List (List ℚ))
    (hG : ∀ x ∈ a, ∀ y ∈ b, bcast1 f x y = .ok (G x y)) :
    match fitDim a.length b.length with
    | none => bcastRows f a b = .error .valueError
    | some n => ∃ c, bcastRows f a b = .ok c ∧ c.length = n ∧ ∀ i < n, ∀ x y,
        repeated a i = some x → repeated b i = some y → c[i]? = some (G x y) := by
  unfold fitDim bcastRows
  by_cases h : a.length = b.length
  · simp only [h, if_true]
    have : (List.zip a b).mapM (fun p => bcast1 f p.1 p.2) =
        .ok ((List.zip a b).map (fun p => G p.1 p.2)) :=
      mapM_ok_of_forall (fun p hp => hG _ (List.of_mem_zip hp).1 _ (List.of_mem_zip hp).2)
    refine ⟨_, this, by simp [h], ?_⟩
    intro j hj x y hx hy
    unfold repeated at hx hy
    rw [h] at hx
    split at hx
    · rename_i h1
      rw [if_pos h1] at hy
      have : j = 0 := by omega
      subst this
      rw [List.getElem?_map, (List.getElem?_zip_eq_some (z := (x, y))).2 ⟨hx, hy⟩]
      rfl
    · rename_i h1
      rw [if_neg h1] at hy
      rw [List.getElem?_map, (List.getElem?_zip_eq_some (z := (x, y))).2 ⟨hx, hy⟩]
      rfl
  · simp only [if_neg h]
    match a, b, h, hG with
    | [x0], b, h, hG =>
      have hb : b.length ≠ 1 := by simpa [eq_comm] using h
      simp only [List.length_singleton, if_true]
      refine ⟨_, mapM_ok_of_forall (g := G x0) (fun y hy => hG _ (by simp) _ hy), by simp, ?_⟩
      intro j hj x y hx hy
      simp only [repeated, List.length_singleton, if_true, List.getElem?_cons_zero,
        Option.some.injEq] at hx
      simp only [repeated, if_neg hb] at hy
      subst hx
      simp [List.getElem?_map, hy]
    | [], [y0], h, hG =>
      simp only [List.length_nil, List.length_singleton, if_true]
      exact ⟨[], rfl, by simp, by simp⟩
    | [], [], h, hG => exact absurd rfl h
    | [], y0 :: y1 :: b, h, hG => simp
    | x0 :: x1 :: a, [], h, hG => simp
    | x0 :: x1 :: a, [y0], h, hG =>
      simp only [List.length_singleton, if_true]
      rw [if_neg (by simp)]
      refine ⟨_, mapM_ok_of_forall (g := fun x => G x y0)
        (fun x hx => hG x hx _ (by simp)), by simp, ?_⟩
      intro j hj x y hx hy
      simp only [repeated, List.length_singleton, if_true, List.getElem?_cons_zero,
        Option.some.injEq] at hy
      simp only [repeated] at hx
      rw [if_neg (by simp)] at hx
      subst hy
      rw [List.getElem?_map, hx]
      rfl
    | x0 :: x1 :: a, y0 :: y1 :: b, h, hG => simp

/-- The claim for one pair of values. -/
def Pointwise (f : ℚ → ℚ → ℚ) (a b c : TVal) (m n : Nat) : Prop :=
  c.wf ∧ c.isArray = true ∧ c.rows = m ∧ c.cols = n ∧ c.axes = max a.axes b.axes ∧
    ∀ i < m, ∀ j < n, ∃ x y, a.read i j = some x ∧ b.read i j = some y ∧
      c.read i j = some (f x y)

theorem repeated_of_lt {α : Type} {l : List α} {n i : Nat} (hl : l.length = n) (hi : i < n) :
    repeated l i = l[i]? := by
  unfold repeated
  split
  · have : i = 0 := by omega
    rw [this]
  · rfl

/-- Arrays with two axes. -/
theorem bcastMat_spec (f : ℚ → ℚ → ℚ) (k l : Nat) (a b : List (List ℚ))
    (ha : ∀ r ∈ a, r.length = k) (hb : ∀ r ∈ b, r.length = l) :
    match fitDim a.length b.length, fitDim k l with
    | some m, some n => ∃ c, bcastMat f k l a b = .ok (.mat n c) ∧ c.length = m ∧
        (∀ r ∈ c, r.length = n) ∧ ∀ i < m, ∀ j < n, ∃ x y,
          (TVal.mat k a).read i j = some x ∧ (TVal.mat l b).read i j = some y ∧
          (TVal.mat n c).read i j = some (f x y)
    | _, _ => bcastMat f k l a b = .error .valueError := by
  cases hc : fitDim k l with
  | none =>
    have : bcastMat f k l a b = .error .valueError := by
      unfold fitDim at hc
      unfold bcastMat
      rw [if_neg]
      rintro (h | h | h)
      · simp [h] at hc
      · simp [h] at hc; split at hc <;> simp at hc
      · simp [h] at hc
        split at hc
        · simp at hc
        · simp at hc
    cases fitDim a.length b.length <;> exact this
  | some n =>
    have hkl := fitDim_some hc
    have hcond : k = l ∨ k = 1 ∨ l = 1 := by omega
    have hlen : bcastLen k l = n := by
      unfold bcastLen
      unfold fitDim at hc
      repeat' split at hc
      all_goals first | (cases hc; split <;> omega) | simp at hc
    have hrow : ∀ x ∈ a, ∀ y ∈ b, ∃ c, bcast1 f x y = .ok c ∧ c.length = n ∧ ∀ j < n, ∀ u v,
        repeated x j = some u → repeated y j = some v → c[j]? = some (f u v) := by
      intro x hx y hy
      have := bcast1_spec f x y
      rw [ha x hx, hb y hy, hc] at this
      exact this
    have hG : ∀ x ∈ a, ∀ y ∈ b, bcast1 f x y = .ok ((bcast1 f x y).toOption.getD []) := by
      intro x hx y hy
      obtain ⟨c, h1, _⟩ := hrow x hx y hy
      rw [h1]; rfl
    have hrows := bcastRows_spec f (fun x y => (bcast1 f x y).toOption.getD []) a b hG
    cases hr : fitDim a.length b.length with
    | none =>
      rw [hr] at hrows
      dsimp only at hrows ⊢
      unfold bcastMat
      rw [if_pos hcond, hrows]
    | some m =>
      rw [hr] at hrows
      dsimp only at hrows ⊢
      obtain ⟨c, h1, h2, h3⟩ := hrows
      have hab := fitDim_some hr
      have hget : ∀ i < m, ∃ x y, repeated a i = some x ∧ repeated b i = some y ∧
          x ∈ a ∧ y ∈ b ∧ ∃ r, c[i]? = some r ∧ r.length = n ∧ ∀ j < n, ∀ u v,
            repeated x j = some u → repeated y j = some v → r[j]? = some (f u v) := by
        intro i hi
        obtain ⟨x, hx, hxa⟩ := repeated_lt hab.1 hi
        obtain ⟨y, hy, hyb⟩ := repeated_lt hab.2 hi
        obtain ⟨r, g1, g2, g3⟩ := hrow x hxa y hyb
        refine ⟨x, y, hx, hy, hxa, hyb, r, ?_, g2, g3⟩
        rw [h3 i hi x y hx hy, g1]
        rfl
      refine ⟨c, ?_, h2, ?_, ?_⟩
      · unfold bcastMat
        rw [if_pos hcond, h1, hlen]
      · intro r hr'
        obtain ⟨i, hi, rfl⟩ := List.mem_iff_getElem.1 hr'
        obtain ⟨_, _, _, _, _, _, r, g1, g2, _⟩ := hget i (by omega)
        rw [List.getElem?_eq_getElem hi] at g1
        cases g1
        exact g2
      · intro i hi j hj
        obtain ⟨x, y, hx, hy, hxa, hyb, r, g1, g2, g3⟩ := hget i hi
        obtain ⟨u, hu, _⟩ := repeated_lt (l := x) (n := n) (i := j)
          (by rw [ha x hxa]; exact hkl.1) hj
        obtain ⟨v, hv, _⟩ := repeated_lt (l := y) (n := n) (i := j)
          (by rw [hb y hyb]; exact hkl.2) hj
        refine ⟨u, v, by simp [TVal.read, hx, hu], by simp [TVal.read, hy, hv], ?_⟩
        simp only [TVal.read, repeated_of_lt h2 hi, g1, Option.bind_some, repeated_of_lt g2 hj]
        exact g3 j hj u v hu hv

theorem fitDim_one_left (n : Nat) : fitDim 1 n = some n := by
  unfold fitDim; split
  · rename_i h; rw [← h]
  · simp

theorem fitDim_one_right (n : Nat) : fitDim n 1 = some n := by
  unfold fitDim
  by_cases h : n = 1 <;> simp [h]

theorem read_singleton (xs : List ℚ) (k i j : Nat) :
    (TVal.mat k [xs]).read i j = (TVal.vec xs).read i j := by
  simp [TVal.read, repeated]

/-- C22. Combining two arrays of at most two axes follows numpy's rules of broadcasting: it
succeeds exactly when the lengths fit along both axes, the result has the fitting lengths,
and each of its elements combines the corresponding elements of the operands, an axis of
length 1 being repeated. -/
theorem arith_broadcasts (f : ℚ → ℚ → ℚ) (a b : TVal) (ha : a.isArray = true)
    (hb : b.isArray = true) (wa : a.wf) (wb : b.wf) :
    match fitDim a.rows b.rows, fitDim a.cols b.cols with
    | some m, some n => ∃ c, bcast f a b = .ok c ∧ Pointwise f a b c m n
    | _, _ => bcast f a b = .error .valueError := by
  cases a with
  | recs cols => simp [TVal.isArray] at ha
  | num x =>
    simp only [TVal.rows, TVal.cols, fitDim_one_left]
    cases b with
    | recs cols => simp [TVal.isArray] at hb
    | num y =>
      exact ⟨_, rfl, trivial, rfl, rfl, rfl, rfl, fun i _ j _ => ⟨x, y, rfl, rfl, rfl⟩⟩
    | vec ys =>
      refine ⟨_, rfl, trivial, rfl, rfl, by simp [TVal.cols], rfl, ?_⟩
      intro i _ j hj
      have hj' : j < ys.length := hj
      refine ⟨x, ys[j], rfl, ?_, ?_⟩
      · simp only [TVal.read, repeated_of_lt rfl hj', List.getElem?_eq_getElem hj']
      · simp only [TVal.read]
        rw [repeated_of_lt (n := ys.length) (by simp) hj']
        simp [List.getElem?_map, List.getElem?_eq_getElem hj']
    | mat k rows =>
      refine ⟨_, rfl, ?_, rfl, by simp [TVal.rows], rfl, rfl, ?_⟩
      · intro r hr
        obtain ⟨r', h1, rfl⟩ := List.mem_map.1 hr
        simpa using wb r' h1
      · intro i hi j hj
        have hi' : i < rows.length := hi
        have hl := wb _ (List.getElem_mem hi')
        have hj' : j < (rows[i]).length := by rw [hl]; exact hj
        refine ⟨x, (rows[i])[j], rfl, ?_, ?_⟩
        · simp only [TVal.read, repeated_of_lt rfl hi', List.getElem?_eq_getElem hi',
            Option.bind_some, repeated_of_lt rfl hj', List.getElem?_eq_getElem hj']
        · simp only [TVal.read]
          rw [repeated_of_lt (n := rows.length) (by simp) hi', List.getElem?_map,
            List.getElem?_eq_getElem hi']
          simp only [Option.map_some, Option.bind_some]
          rw [repeated_of_lt (n := (rows[i]).length) (by simp) hj', List.getElem?_map,
            List.getElem?_eq_getElem hj']
          rfl
  | vec xs =>
    cases b with
    | recs cols => simp [TVal.isArray] at hb
    | num y =>
      simp only [TVal.rows, TVal.cols, fitDim_one_right]
      refine ⟨_, rfl, trivial, rfl, rfl, by simp [TVal.cols], rfl, ?_⟩
      intro i _ j hj
      have hj' : j < xs.length := hj
      refine ⟨xs[j], y, ?_, rfl, ?_⟩
      · simp only [TVal.read, repeated_of_lt rfl hj', List.getElem?_eq_getElem hj']
      · simp only [TVal.read]
        rw [repeated_of_lt (n := xs.length) (by simp) hj']
        simp [List.getElem?_map, List.getElem?_eq_getElem hj']
    | vec ys =>
      simp only [TVal.rows, TVal.cols, fitDim_one_right]
      have h := bcast1_spec f xs ys
      cases hc : fitDim xs.length ys.length with
      | none =>
        rw [hc] at h
        dsimp only at h ⊢
        simp only [bcast, h]
      | some n =>
        rw [hc] at h
        dsimp only at h ⊢
        obtain ⟨c, h1, h2, h3⟩ := h
        have hab := fitDim_some hc
        refine ⟨.vec c, by simp only [bcast, h1], trivial, rfl, rfl, h2, rfl, ?_⟩
        intro i _ j hj
        obtain ⟨u, hu, _⟩ := repeated_lt hab.1 hj
        obtain ⟨v, hv, _⟩ := repeated_lt hab.2 hj
        refine ⟨u, v, hu, hv, ?_⟩
        simp only [TVal.read, repeated_of_lt h2 hj]
        exact h3 j hj u v hu hv
    | mat k rows =>
      have h := bcastMat_spec f xs.length k [xs] rows (by simp) wb
      simp only [TVal.rows, TVal.cols, List.length_singleton] at h ⊢
      rw [fitDim_one_left] at h ⊢
      cases hc : fitDim xs.length k with
      | none =>
        rw [hc] at h
        exact h
      | some n =>
        rw [hc] at h
        obtain ⟨c, h1, h2, h3, h4⟩ := h
        refine ⟨_, h1, h3, rfl, h2, rfl, rfl, ?_⟩
        intro i hi j hj
        obtain ⟨u, v, g1, g2, g3⟩ := h4 i hi j hj
        exact ⟨u, v, by rw [← g1, read_singleton], g2, g3⟩
  | mat k rows =>
    cases b with
    | recs cols => simp [TVal.isArray] at hb
    | num y =>
      simp only [TVal.rows, TVal.cols, fitDim_one_right]
      refine ⟨_, rfl, ?_, rfl, by simp [TVal.rows], rfl, rfl, ?_⟩
      · intro r hr
        obtain ⟨r', h1, rfl⟩ := List.mem_map.1 hr
        simpa using wa r' h1
      · intro i hi j hj
        have hi' : i < rows.length := hi
        have hl := wa _ (List.getElem_mem hi')
        have hj' : j < (rows[i]).length := by rw [hl]; exact hj
        refine ⟨(rows[i])[j], y, ?_, rfl, ?_⟩
        · simp only [TVal.read, repeated_of_lt rfl hi', List.getElem?_eq_getElem hi',
            Option.bind_some, repeated_of_lt rfl hj', List.getElem?_eq_getElem hj']
        · simp only [TVal.read]
          rw [repeated_of_lt (n := rows.length) (by simp) hi', List.getElem?_map,
            List.getElem?_eq_getElem hi']
          simp only [Option.map_some, Option.bind_some]
          rw [repeated_of_lt (n := (rows[i]).length) (by simp) hj', List.getElem?_map,
            List.getElem?_eq_getElem hj']
          rfl
    | vec ys =>
      have h := bcastMat_spec f k ys.length rows [ys] wa (by simp)
      simp only [TVal.rows, TVal.cols, List.length_singleton] at h ⊢
      rw [fitDim_one_right] at h ⊢
      cases hc : fitDim k ys.length with
      | none =>
        rw [hc] at h
        exact h
      | some n =>
        rw [hc] at h
        obtain ⟨c, h1, h2, h3, h4⟩ := h
        refine ⟨_, h1, h3, rfl, h2, rfl, rfl, ?_⟩
        intro i hi j hj
        obtain ⟨u, v, g1, g2, g3⟩ := h4 i hi j hj
        exact ⟨u, v, g1, by rw [← g2, read_singleton], g3⟩
    | mat l rows' =>
      have h := bcastMat_spec f k l rows rows' wa wb
      simp only [TVal.rows, TVal.cols]
      cases hr : fitDim rows.length rows'.length with
      | none =>
        rw [hr] at h
        exact h
      | some m =>
        rw [hr] at h
        cases hc : fitDim k l with
        | none =>
          rw [hc] at h
          exact h
        | some n =>
          rw [hc] at h
          obtain ⟨c, h1, h2, h3, h4⟩ := h
          exact ⟨_, h1, h3, rfl, h2, rfl, rfl, h4⟩

/-- The operation on numbers. -/
def numOp : AOp → ℚ → ℚ → ℚ
  | .add => (· + ·)
  | .sub => (· - ·)
  | .mul => (· * ·)
  | .div => (· / ·)

/-- C22. The operators of transforms compute `a + b`, `a - b`, `a * b` and `a / b` (no divisor
being zero) element by element. -/
theorem arith_elementwise (op : AOp) (a b : TVal) (ha : a.isArray = true)
    (hb : b.isArray = true) (wa : a.wf) (wb : b.wf)
    (hdiv : op = .div → ∀ i j x, b.read i j = some x → x ≠ 0) :
    match fitDim a.rows b.rows, fitDim a.cols b.cols with
    | some m, some n => ∃ c, arithFn op a b = .ok c ∧ Pointwise (numOp op) a b c m n
    | _, _ => arithFn op a b = .error .valueError := by
  have h := arith_broadcasts (numOp op) a b ha hb wa wb
  have e : arithFn op a b = bcast (numOp op) a b := by
    cases op with
    | div =>
      cases a <;> cases b <;> try rfl
      rename_i x y
      have : y ≠ 0 := hdiv rfl 0 0 y rfl
      simp [arithFn, bcast, numOp, this]
    | _ => rfl
  rw [e]
  exact h

/-- A column plus a row is a table. -/
example : arithFn .sub (.mat 1 [[10], [20]]) (.vec [1, 2, 3]) =
    .ok (.mat 3 [[9, 8, 7], [19, 18, 17]]) := by decide +kernel

end Verif
