import Verif.Spec.Checker
import Mathlib.Data.String.Basic
import Mathlib.Data.List.Sort
/-
Lemmas on the comparison of JSON values.
-/

namespace Verif

mutual
theorem Reordered.beq_iff : ∀ x y : Reordered, x.beq y = true ↔ x = y
  | .null, y => by cases y <;> simp [Reordered.beq]
  | .num p, y => by cases y <;> simp [Reordered.beq]
  | .str s, y => by cases y <;> simp [Reordered.beq]
  | .list l, y => by
    cases y <;> simp [Reordered.beq]
    exact Reordered.beqs_iff l _
  | .item k v, y => by
    cases y <;> simp [Reordered.beq]
    intro _
    exact Reordered.beq_iff v _
theorem Reordered.beqs_iff : ∀ l m : List Reordered, Reordered.beqs l m = true ↔ l = m
  | [], m => by cases m <;> simp [Reordered.beqs]
  | x :: xs, m => by
    cases m with
    | nil => simp [Reordered.beqs]
    | cons y ys =>
      simp only [Reordered.beqs, Bool.and_eq_true, List.cons.injEq]
      rw [Reordered.beq_iff x y, Reordered.beqs_iff xs ys]
end

theorem Reordered.beq_self (x : Reordered) : x.beq x = true := (Reordered.beq_iff x x).2 rfl

instance : DecidableEq Reordered := fun x y => decidable_of_iff _ (Reordered.beq_iff x y)

theorem Reordered.beq_false {x y : Reordered} (h : x ≠ y) : x.beq y = false := by
  cases hb : x.beq y with
  | false => rfl
  | true => exact absurd ((Reordered.beq_iff x y).1 hb) h

mutual
theorem Reordered.lt_irrefl : ∀ x : Reordered, x.lt x ≠ .ok true
  | .null => by simp [Reordered.lt]
  | .num p => by simp [Reordered.lt]
  | .str s => by simp [Reordered.lt]
  | .list l => by simp only [Reordered.lt]; exact Reordered.lts_irrefl l
  | .item k v => by simp [Reordered.lt, Reordered.beq_self]
theorem Reordered.lts_irrefl : ∀ l : List Reordered, Reordered.lts l l ≠ .ok true
  | [] => by simp [Reordered.lts]
  | x :: xs => by
    simp only [Reordered.lts, Reordered.beq_self, if_true]
    exact Reordered.lts_irrefl xs
end

mutual
/-- If `y < x` is false, then `x ≤ y`. -/
theorem Reordered.lt_connex : ∀ x y : Reordered, y.lt x = .ok false → x = y ∨ x.lt y = .ok true
  | .null, y => by cases y <;> simp [Reordered.lt]
  | .num p, y => by
    cases y <;> simp [Reordered.lt]
    intro h; exact (lt_or_eq_of_le h).symm
  | .str s, y => by
    cases y <;> simp only [Reordered.lt, reduceCtorEq, false_implies]
    intro h
    simp only [Except.ok.injEq, decide_eq_false_iff_not, decide_eq_true_eq, not_lt] at h ⊢
    rcases lt_or_eq_of_le h with h | h
    · exact Or.inr h
    · exact Or.inl (by rw [h])
  | .list l, y => by
    cases y <;> simp only [Reordered.lt, reduceCtorEq, false_implies]
    intro h
    rcases Reordered.lts_connex l _ h with h | h
    · exact Or.inl (by rw [h])
    · exact Or.inr h
  | .item k v, y => by
    cases y <;> simp only [Reordered.lt, reduceCtorEq, false_implies]
    rename_i k' v'
    by_cases hk : k' = k
    · subst hk
      simp only [if_true]
      by_cases hv : v' = v
      · subst hv; intro _; exact Or.inl rfl
      · rw [Reordered.beq_false hv, Reordered.beq_false (Ne.symm hv)]
        simp only [Bool.false_eq_true, if_false]
        intro h
        rcases Reordered.lt_connex v v' h with h | h
        · exact absurd h.symm hv
        · exact Or.inr h
    · rw [if_neg hk, if_neg (Ne.symm hk)]
      intro h
      simp only [Except.ok.injEq, decide_eq_false_iff_not, not_lt] at h
      right
      simp only [Except.ok.injEq, decide_eq_true_eq]
      exact lt_of_le_of_ne h (Ne.symm hk)
theorem Reordered.lts_connex : ∀ l m : List Reordered, Reordered.lts m l = .ok false →
    l = m ∨ Reordered.lts l m = .ok true
  | [], m => by cases m <;> simp [Reordered.lts]
  | x :: xs, m => by
    cases m with
    | nil => simp [Reordered.lts]
    | cons y ys =>
      simp only [Reordered.lts]
      by_cases hxy : y = x
      · subst hxy
        simp only [Reordered.beq_self, if_true]
        intro h
        rcases Reordered.lts_connex xs ys h with h | h
        · exact Or.inl (by rw [h])
        · exact Or.inr h
      · rw [Reordered.beq_false hxy, Reordered.beq_false (Ne.symm hxy)]
        simp only [Bool.false_eq_true, if_false]
        intro h
        rcases Reordered.lt_connex x y h with h | h
        · exact absurd h.symm hxy
        · exact Or.inr h
end

mutual
theorem Reordered.lt_trans : ∀ x y z : Reordered, x.lt y = .ok true → y.lt z = .ok true →
    x.lt z = .ok true
  | .null, y, z => by cases y <;> simp [Reordered.lt]
  | .num p, y, z => by
    cases y <;> simp [Reordered.lt]
    cases z <;> simp [Reordered.lt]
    exact fun h1 h2 => _root_.lt_trans h1 h2
  | .str s, y, z => by
    cases y <;> simp only [Reordered.lt, reduceCtorEq, false_implies]
    cases z <;> simp only [Reordered.lt, reduceCtorEq, false_implies, implies_true]
    simp only [Except.ok.injEq, decide_eq_true_eq]
    exact fun h1 h2 => _root_.lt_trans h1 h2
  | .list l, y, z => by
    cases y <;> simp only [Reordered.lt, reduceCtorEq, false_implies]
    cases z <;> simp only [Reordered.lt, reduceCtorEq, false_implies, implies_true]
    exact Reordered.lts_trans l _ _
  | .item k v, y, z => by
    cases y <;> simp only [Reordered.lt, reduceCtorEq, false_implies]
    cases z <;> simp only [Reordered.lt, reduceCtorEq, false_implies, implies_true]
    rename_i k1 v1 k2 v2
    intro h1 h2
    by_cases hk1 : k = k1
    · subst hk1
      rw [if_pos rfl] at h1
      by_cases hv1 : v = v1
      · subst hv1; rw [Reordered.beq_self] at h1; simp at h1
      · rw [Reordered.beq_false hv1] at h1
        simp only [Bool.false_eq_true, if_false] at h1
        by_cases hk2 : k = k2
        · rw [if_pos hk2] at h2 ⊢
          by_cases hv2 : v1 = v2
          · subst hv2; rw [Reordered.beq_self] at h2; simp at h2
          · rw [Reordered.beq_false hv2] at h2
            simp only [Bool.false_eq_true, if_false] at h2
            have h3 := Reordered.lt_trans v v1 v2 h1 h2
            have hne : v ≠ v2 := by rintro rfl; exact Reordered.lt_irrefl v h3
            rw [Reordered.beq_false hne]
            simpa using h3
        · rw [if_neg hk2] at h2 ⊢; exact h2
    · rw [if_neg hk1] at h1
      simp only [Except.ok.injEq, decide_eq_true_eq] at h1
      by_cases hk2 : k1 = k2
      · subst hk2
        rw [if_neg hk1]; simpa using h1
      · rw [if_neg hk2] at h2
        simp only [Except.ok.injEq, decide_eq_true_eq] at h2
        have h3 := _root_.lt_trans h1 h2
        rw [if_neg (ne_of_lt h3)]; simpa using h3
theorem Reordered.lts_trans : ∀ l m n : List Reordered, Reordered.lts l m = .ok true →
    Reordered.lts m n = .ok true → Reordered.lts l n = .ok true
  | [], m, n => by cases m <;> cases n <;> simp [Reordered.lts]
  | x :: xs, m, n => by
    cases m with
    | nil => simp [Reordered.lts]
    | cons y ys =>
      cases n with
      | nil => simp [Reordered.lts]
      | cons z zs =>
        simp only [Reordered.lts]
        intro h1 h2
        by_cases hxy : x = y
        · subst hxy
          rw [Reordered.beq_self] at h1
          by_cases hyz : x = z
          · subst hyz
            rw [Reordered.beq_self] at h2 ⊢
            exact Reordered.lts_trans xs ys zs h1 h2
          · rw [Reordered.beq_false hyz] at h2 ⊢
            exact h2
        · rw [Reordered.beq_false hxy] at h1
          simp only [Bool.false_eq_true, if_false] at h1
          by_cases hyz : y = z
          · subst hyz
            rw [Reordered.beq_false hxy]
            exact h1
          · rw [Reordered.beq_false hyz] at h2
            simp only [Bool.false_eq_true, if_false] at h2
            have h3 := Reordered.lt_trans x y z h1 h2
            have hne : x ≠ z := by rintro rfl; exact Reordered.lt_irrefl x h3
            rw [Reordered.beq_false hne]
            exact h3
end

/-- Less or equal. -/
def Reordered.Le (x y : Reordered) : Prop := x = y ∨ x.lt y = .ok true

theorem Reordered.Le.trans {x y z : Reordered} (h1 : x.Le y) (h2 : y.Le z) : x.Le z := by
  rcases h1 with rfl | h1
  · exact h2
  · rcases h2 with rfl | h2
    · exact Or.inr h1
    · exact Or.inr (Reordered.lt_trans _ _ _ h1 h2)

theorem Reordered.Le.antisymm {x y : Reordered} (h1 : x.Le y) (h2 : y.Le x) : x = y := by
  rcases h1 with rfl | h1
  · rfl
  · rcases h2 with rfl | h2
    · rfl
    · exact absurd (Reordered.lt_trans _ _ _ h1 h2) (Reordered.lt_irrefl _)

variable {sort : SortFn}

theorem sort_pairwise (hs : SortSpec sort) {l m : List Reordered} (h : sort l = .ok m) :
    m.Pairwise Reordered.Le := by
  have hc := (hs.sorted l m h).imp (fun x y hxy => Reordered.lt_connex x y hxy)
  have : Trans Reordered.Le Reordered.Le Reordered.Le := ⟨Reordered.Le.trans⟩
  exact List.isChain_iff_pairwise.1 hc

/-- Lists with the same elements are sorted to the same list. -/
theorem sort_unique (hs : SortSpec sort) {l l' m m' : List Reordered} (h : sort l = .ok m)
    (h' : sort l' = .ok m') : m = m' ↔ l.Perm l' := by
  constructor
  · rintro rfl
    exact (hs.perm _ _ h).symm.trans (hs.perm _ _ h')
  · intro hp
    have hm : m.Perm m' := (hs.perm _ _ h).trans (hp.trans (hs.perm _ _ h').symm)
    exact hm.eq_of_pairwise (fun x y _ _ => Reordered.Le.antisymm) (sort_pairwise hs h)
      (sort_pairwise hs h')

/-! ### Matching elements -/

theorem jsReorderAll_length : ∀ (l : List Js) (rs : List Reordered),
    jsReorderAll sort l = .ok rs → rs.length = l.length
  | [], rs, h => by simp [jsReorderAll] at h; simp [← h]
  | x :: xs, rs, h => by
    simp only [jsReorderAll] at h
    cases hx : jsReorder sort x with
    | error e => rw [hx] at h; cases h
    | ok r =>
      rw [hx] at h
      cases hr : jsReorderAll sort xs with
      | error e => rw [hr] at h; cases h
      | ok rs' =>
        rw [hr] at h
        cases h
        simp [jsReorderAll_length xs rs' hr]

/-- Reordering of a list element by element. -/
theorem jsReorderAll_cons {x : Js} {xs : List Js} {rs : List Reordered} :
    jsReorderAll sort (x :: xs) = .ok rs ↔
      ∃ r rs', jsReorder sort x = .ok r ∧ jsReorderAll sort xs = .ok rs' ∧ rs = r :: rs' := by
  simp only [jsReorderAll]
  cases hx : jsReorder sort x with
  | error e => simp
  | ok r =>
    cases hr : jsReorderAll sort xs with
    | error e => simp [Except.map]
    | ok rs' => simp [Except.map, eq_comm]

theorem jsReorderItems_cons {k : String} {x : Js} {xs : List (String × Js)}
    {rs : List Reordered} : jsReorderItems sort ((k, x) :: xs) = .ok rs ↔
      ∃ r rs', jsReorder sort x = .ok r ∧ jsReorderItems sort xs = .ok rs' ∧
        rs = .item k r :: rs' := by
  simp only [jsReorderItems]
  cases hx : jsReorder sort x with
  | error e => simp
  | ok r =>
    cases hr : jsReorderItems sort xs with
    | error e => simp [Except.map]
    | ok rs' => simp [Except.map, eq_comm]

theorem jsReorderAll_append {xs ys : List Js} {rs : List Reordered} :
    jsReorderAll sort (xs ++ ys) = .ok rs ↔
      ∃ as bs, jsReorderAll sort xs = .ok as ∧ jsReorderAll sort ys = .ok bs ∧ rs = as ++ bs := by
  induction xs generalizing rs with
  | nil => simp [jsReorderAll, eq_comm]
  | cons x xs ih =>
    simp only [List.cons_append, jsReorderAll_cons, ih]
    constructor
    · rintro ⟨r, _, hr, ⟨as, bs, ha, hb, rfl⟩, rfl⟩
      exact ⟨r :: as, bs, ⟨r, as, hr, ha, rfl⟩, hb, rfl⟩
    · rintro ⟨_, bs, ⟨r, as, hr, ha, rfl⟩, hb, rfl⟩
      exact ⟨r, as ++ bs, hr, ⟨as, bs, ha, hb, rfl⟩, rfl⟩

theorem jsReorderItems_append {xs ys : List (String × Js)} {rs : List Reordered} :
    jsReorderItems sort (xs ++ ys) = .ok rs ↔
      ∃ as bs, jsReorderItems sort xs = .ok as ∧ jsReorderItems sort ys = .ok bs ∧
        rs = as ++ bs := by
  induction xs generalizing rs with
  | nil => simp [jsReorderItems, eq_comm]
  | cons x xs ih =>
    obtain ⟨k, x⟩ := x
    simp only [List.cons_append, jsReorderItems_cons, ih]
    constructor
    · rintro ⟨r, _, hr, ⟨as, bs, ha, hb, rfl⟩, rfl⟩
      exact ⟨.item k r :: as, bs, ⟨r, as, hr, ha, rfl⟩, hb, rfl⟩
    · rintro ⟨_, bs, ⟨r, as, hr, ha, rfl⟩, hb, rfl⟩
      exact ⟨r, as ++ bs, hr, ⟨as, bs, ha, hb, rfl⟩, rfl⟩

theorem jsReorder_arr {l : List Js} {r : Reordered} : jsReorder sort (.arr l) = .ok r ↔
    ∃ rs ss, jsReorderAll sort l = .ok rs ∧ sort rs = .ok ss ∧ r = .list ss := by
  simp only [jsReorder]
  cases hl : jsReorderAll sort l with
  | error e => simp
  | ok rs =>
    cases hs : sort rs with
    | error e => simp [hs, Except.map]
    | ok ss => simp [hs, Except.map, eq_comm]

theorem jsReorder_obj {l : List (String × Js)} {r : Reordered} :
    jsReorder sort (.obj l) = .ok r ↔
    ∃ rs ss, jsReorderItems sort l = .ok rs ∧ sort rs = .ok ss ∧ r = .list ss := by
  simp only [jsReorder]
  cases hl : jsReorderItems sort l with
  | error e => simp
  | ok rs =>
    cases hs : sort rs with
    | error e => simp [hs, Except.map]
    | ok ss => simp [hs, Except.map, eq_comm]

/-- An element of a reordered list comes from an element of the list. -/
theorem jsReorderAll_mem : ∀ {l : List Js} {rs : List Reordered} {r : Reordered},
    jsReorderAll sort l = .ok rs → r ∈ rs →
    ∃ ys y zs as bs, l = ys ++ y :: zs ∧ rs = as ++ r :: bs ∧ jsReorder sort y = .ok r ∧
      jsReorderAll sort (ys ++ zs) = .ok (as ++ bs)
  | [], rs, r, h, hr => by simp [jsReorderAll] at h; subst h; simp at hr
  | x :: xs, rs, r, h, hr => by
    obtain ⟨r0, rs', h0, hs, rfl⟩ := jsReorderAll_cons.1 h
    rcases List.mem_cons.1 hr with rfl | hr
    · exact ⟨[], x, xs, [], rs', rfl, rfl, h0, hs⟩
    · obtain ⟨ys, y, zs, as, bs, rfl, rfl, hy, hrest⟩ := jsReorderAll_mem hs hr
      refine ⟨x :: ys, y, zs, r0 :: as, bs, rfl, rfl, hy, ?_⟩
      exact jsReorderAll_cons.2 ⟨r0, as ++ bs, h0, hrest, rfl⟩

theorem jsReorderItems_mem : ∀ {l : List (String × Js)} {rs : List Reordered} {r : Reordered},
    jsReorderItems sort l = .ok rs → r ∈ rs →
    ∃ ys k y v zs as bs, l = ys ++ (k, y) :: zs ∧ rs = as ++ r :: bs ∧ r = .item k v ∧
      jsReorder sort y = .ok v ∧ jsReorderItems sort (ys ++ zs) = .ok (as ++ bs)
  | [], rs, r, h, hr => by simp [jsReorderItems] at h; subst h; simp at hr
  | (k, x) :: xs, rs, r, h, hr => by
    obtain ⟨r0, rs', h0, hs, rfl⟩ := jsReorderItems_cons.1 h
    rcases List.mem_cons.1 hr with rfl | hr
    · exact ⟨[], k, x, r0, xs, [], rs', rfl, rfl, rfl, h0, hs⟩
    · obtain ⟨ys, k', y, v, zs, as, bs, rfl, rfl, hv, hy, hrest⟩ := jsReorderItems_mem hs hr
      refine ⟨(k, x) :: ys, k', y, v, zs, .item k r0 :: as, bs, rfl, rfl, hv, hy, ?_⟩
      exact jsReorderItems_cons.2 ⟨r0, as ++ bs, h0, hrest, rfl⟩

mutual
/-- The same values are reordered to the same value. -/
theorem sameJs_reorder (hs : SortSpec sort) : ∀ {a b : Js} {x y : Reordered}, SameJs a b →
    jsReorder sort a = .ok x → jsReorder sort b = .ok y → x = y
  | _, _, x, y, .null, hx, hy => by simp [jsReorder] at hx hy; rw [← hx, ← hy]
  | a, b, x, y, .number (q := q) ha hb, hx, hy => by
    cases a <;> simp [Js.numeric] at ha <;> cases b <;> simp [Js.numeric] at hb <;>
      simp [jsReorder] at hx hy <;> rw [← hx, ← hy, ha, hb]
  | _, _, x, y, .str s, hx, hy => by simp [jsReorder] at hx hy; rw [← hx, ← hy]
  | _, _, x, y, .arr h, hx, hy => by
    obtain ⟨rs, ss, h1, h2, rfl⟩ := jsReorder_arr.1 hx
    obtain ⟨rs', ss', h1', h2', rfl⟩ := jsReorder_arr.1 hy
    rw [(sort_unique hs h2 h2').2 (sameAll_reorder hs h h1 h1')]
  | _, _, x, y, .obj h, hx, hy => by
    obtain ⟨rs, ss, h1, h2, rfl⟩ := jsReorder_obj.1 hx
    obtain ⟨rs', ss', h1', h2', rfl⟩ := jsReorder_obj.1 hy
    rw [(sort_unique hs h2 h2').2 (sameItems_reorder hs h h1 h1')]
  | _, _, x, y, .emptyArr, hx, hy => by
    obtain ⟨rs, ss, h1, h2, rfl⟩ := jsReorder_arr.1 hx
    obtain ⟨rs', ss', h1', h2', rfl⟩ := jsReorder_obj.1 hy
    simp [jsReorderAll, jsReorderItems] at h1 h1'
    subst h1 h1'
    rw [h2] at h2'
    cases h2'; rfl
  | _, _, x, y, .emptyObj, hx, hy => by
    obtain ⟨rs, ss, h1, h2, rfl⟩ := jsReorder_obj.1 hx
    obtain ⟨rs', ss', h1', h2', rfl⟩ := jsReorder_arr.1 hy
    simp [jsReorderAll, jsReorderItems] at h1 h1'
    subst h1 h1'
    rw [h2] at h2'
    cases h2'; rfl
theorem sameAll_reorder (hs : SortSpec sort) : ∀ {l m : List Js} {rs ss : List Reordered},
    SameAll l m → jsReorderAll sort l = .ok rs → jsReorderAll sort m = .ok ss → rs.Perm ss
  | _, _, rs, ss, .nil, h1, h2 => by rw [h1] at h2; cases h2; exact List.Perm.refl _
  | _, _, rs, ss, .cons hxy hrest, h1, h2 => by
    obtain ⟨r, rs', hr, hrs, rfl⟩ := jsReorderAll_cons.1 h1
    obtain ⟨as, bs, ha, hb, rfl⟩ := jsReorderAll_append.1 h2
    obtain ⟨r', bs', hr', hb', rfl⟩ := jsReorderAll_cons.1 hb
    have e := sameJs_reorder hs hxy hr hr'
    subst e
    have hp := sameAll_reorder hs hrest hrs (jsReorderAll_append.2 ⟨as, bs', ha, hb', rfl⟩)
    exact (List.Perm.cons r hp).trans List.perm_middle.symm
theorem sameItems_reorder (hs : SortSpec sort) : ∀ {l m : List (String × Js)}
    {rs ss : List Reordered}, SameItems l m → jsReorderItems sort l = .ok rs →
    jsReorderItems sort m = .ok ss → rs.Perm ss
  | _, _, rs, ss, .nil, h1, h2 => by rw [h1] at h2; cases h2; exact List.Perm.refl _
  | _, _, rs, ss, .cons (k := k) hxy hrest, h1, h2 => by
    obtain ⟨r, rs', hr, hrs, rfl⟩ := jsReorderItems_cons.1 h1
    obtain ⟨as, bs, ha, hb, rfl⟩ := jsReorderItems_append.1 h2
    obtain ⟨r', bs', hr', hb', rfl⟩ := jsReorderItems_cons.1 hb
    have e := sameJs_reorder hs hxy hr hr'
    subst e
    have hp := sameItems_reorder hs hrest hrs (jsReorderItems_append.2 ⟨as, bs', ha, hb', rfl⟩)
    exact (List.Perm.cons _ hp).trans List.perm_middle.symm
end

theorem reorder_numeric {a : Js} {q : ℚ} : jsReorder sort a = .ok (.num q) ↔
    a.numeric = some q := by
  cases a with
  | arr l =>
    simp only [jsReorder_arr, Js.numeric]
    constructor
    · rintro ⟨_, _, _, _, h⟩; cases h
    · intro h; cases h
  | obj l =>
    simp only [jsReorder_obj, Js.numeric]
    constructor
    · rintro ⟨_, _, _, _, h⟩; cases h
    · intro h; cases h
  | _ => simp [jsReorder, Js.numeric]

mutual
/-- Values that are reordered to the same value are the same. -/
theorem reorder_sameJs (hs : SortSpec sort) : ∀ (a b : Js) (x : Reordered),
    jsReorder sort a = .ok x → jsReorder sort b = .ok x → SameJs a b
  | .null, b, x, hx, hy => by
    simp [jsReorder] at hx
    subst hx
    cases b with
    | null => exact .null
    | arr l => obtain ⟨_, _, _, _, h⟩ := jsReorder_arr.1 hy; cases h
    | obj l => obtain ⟨_, _, _, _, h⟩ := jsReorder_obj.1 hy; cases h
    | _ => simp [jsReorder] at hy
  | .bool c, b, x, hx, hy => by
    simp only [jsReorder, Except.ok.injEq] at hx
    subst hx
    exact .number rfl (reorder_numeric.1 hy)
  | .num q, b, x, hx, hy => by
    simp only [jsReorder, Except.ok.injEq] at hx
    subst hx
    exact .number rfl (reorder_numeric.1 hy)
  | .str s, b, x, hx, hy => by
    simp [jsReorder] at hx
    subst hx
    cases b with
    | str t => simp [jsReorder] at hy; subst hy; exact .str _
    | arr l => obtain ⟨_, _, _, _, h⟩ := jsReorder_arr.1 hy; cases h
    | obj l => obtain ⟨_, _, _, _, h⟩ := jsReorder_obj.1 hy; cases h
    | _ => simp [jsReorder] at hy
  | .arr l, b, x, hx, hy => by
    obtain ⟨rs, ss, h1, h2, rfl⟩ := jsReorder_arr.1 hx
    cases b with
    | arr m =>
      obtain ⟨rs', ss', h1', h2', h⟩ := jsReorder_arr.1 hy
      cases h
      exact .arr (reorder_sameAll hs l m rs rs' h1 h1' ((sort_unique hs h2 h2').1 rfl))
    | obj m =>
      obtain ⟨rs', ss', h1', h2', h⟩ := jsReorder_obj.1 hy
      cases h
      have hp := (sort_unique hs h2 h2').1 rfl
      cases m with
      | nil =>
        simp [jsReorderItems] at h1'
        subst h1'
        have : l = [] := by
          have := jsReorderAll_length _ _ h1
          rw [hp.length_eq] at this
          exact List.length_eq_zero_iff.1 this.symm
        subst this
        exact .emptyArr
      | cons p m =>
        exfalso
        obtain ⟨k, v⟩ := p
        obtain ⟨r, rs'', hr, hrs, rfl⟩ := jsReorderItems_cons.1 h1'
        have hm : Reordered.item k r ∈ rs := hp.mem_iff.2 (by simp)
        obtain ⟨_, y, _, _, _, _, _, hy', _⟩ := jsReorderAll_mem h1 hm
        cases y with
        | arr l => obtain ⟨_, _, _, _, h⟩ := jsReorder_arr.1 hy'; cases h
        | obj l => obtain ⟨_, _, _, _, h⟩ := jsReorder_obj.1 hy'; cases h
        | _ => simp [jsReorder] at hy'
    | _ => simp [jsReorder] at hy
  | .obj l, b, x, hx, hy => by
    obtain ⟨rs, ss, h1, h2, rfl⟩ := jsReorder_obj.1 hx
    cases b with
    | obj m =>
      obtain ⟨rs', ss', h1', h2', h⟩ := jsReorder_obj.1 hy
      cases h
      exact .obj (reorder_sameItems hs l m rs rs' h1 h1' ((sort_unique hs h2 h2').1 rfl))
    | arr m =>
      obtain ⟨rs', ss', h1', h2', h⟩ := jsReorder_arr.1 hy
      cases h
      have hp := (sort_unique hs h2 h2').1 rfl
      cases l with
      | nil =>
        simp [jsReorderItems] at h1
        subst h1
        have : m = [] := by
          have := jsReorderAll_length _ _ h1'
          rw [← hp.length_eq] at this
          exact List.length_eq_zero_iff.1 this.symm
        subst this
        exact .emptyObj
      | cons p l =>
        exfalso
        obtain ⟨k, v⟩ := p
        obtain ⟨r, rs'', hr, hrs, rfl⟩ := jsReorderItems_cons.1 h1
        have hm : Reordered.item k r ∈ rs' := hp.mem_iff.1 (by simp)
        obtain ⟨_, y, _, _, _, _, _, hy', _⟩ := jsReorderAll_mem h1' hm
        cases y with
        | arr l => obtain ⟨_, _, _, _, h⟩ := jsReorder_arr.1 hy'; cases h
        | obj l => obtain ⟨_, _, _, _, h⟩ := jsReorder_obj.1 hy'; cases h
        | _ => simp [jsReorder] at hy'
    | _ => simp [jsReorder] at hy
theorem reorder_sameAll (hs : SortSpec sort) : ∀ (l m : List Js) (rs ss : List Reordered),
    jsReorderAll sort l = .ok rs → jsReorderAll sort m = .ok ss → rs.Perm ss → SameAll l m
  | [], m, rs, ss, h1, h2, hp => by
    simp [jsReorderAll] at h1
    subst h1
    have h3 := jsReorderAll_length _ _ h2
    rw [← hp.length_eq] at h3
    rw [List.length_eq_zero_iff.1 h3.symm]
    exact .nil
  | x :: xs, m, rs, ss, h1, h2, hp => by
    obtain ⟨r, rs', hr, hrs, rfl⟩ := jsReorderAll_cons.1 h1
    obtain ⟨ys, y, zs, as, bs, rfl, rfl, hy, hrest⟩ :=
      jsReorderAll_mem h2 (hp.mem_iff.1 (List.mem_cons_self))
    exact .cons (reorder_sameJs hs x y r hr hy)
      (reorder_sameAll hs xs _ rs' _ hrs hrest (hp.trans List.perm_middle).cons_inv)
theorem reorder_sameItems (hs : SortSpec sort) : ∀ (l m : List (String × Js))
    (rs ss : List Reordered), jsReorderItems sort l = .ok rs → jsReorderItems sort m = .ok ss →
    rs.Perm ss → SameItems l m
  | [], m, rs, ss, h1, h2, hp => by
    simp [jsReorderItems] at h1
    subst h1
    cases m with
    | nil => exact .nil
    | cons p m =>
      obtain ⟨k, v⟩ := p
      obtain ⟨r, rs'', hr, hrs, rfl⟩ := jsReorderItems_cons.1 h2
      exact absurd hp.length_eq (by simp)
  | (k, x) :: xs, m, rs, ss, h1, h2, hp => by
    obtain ⟨r, rs', hr, hrs, rfl⟩ := jsReorderItems_cons.1 h1
    obtain ⟨ys, k', y, v, zs, as, bs, rfl, rfl, he, hy, hrest⟩ :=
      jsReorderItems_mem h2 (hp.mem_iff.1 (List.mem_cons_self))
    cases he
    exact .cons (reorder_sameJs hs x y _ hr hy)
      (reorder_sameItems hs xs _ rs' _ hrs hrest (hp.trans List.perm_middle).cons_inv)
end

/-! ### The order of keys -/

theorem reorderedItems_comparable : ∀ {l : List (String × Js)} {rs : List Reordered},
    (l.map Prod.fst).Nodup → jsReorderItems sort l = .ok rs →
    rs.Pairwise (fun x y => ¬ Raises (x.lt y) ∧ ¬ Raises (y.lt x))
  | [], rs, _, h => by simp [jsReorderItems] at h; subst h; exact List.Pairwise.nil
  | (k, x) :: xs, rs, hn, h => by
    obtain ⟨r, rs', _, hrs, rfl⟩ := jsReorderItems_cons.1 h
    simp only [List.map_cons, List.nodup_cons] at hn
    refine List.Pairwise.cons (fun y hy => ?_) (reorderedItems_comparable hn.2 hrs)
    obtain ⟨ys, k', y', v, zs, as, bs, rfl, rfl, rfl, _, _⟩ := jsReorderItems_mem hrs hy
    have hk : k ≠ k' := by
      intro e
      apply hn.1
      simp [e]
    constructor
    · intro h
      simp only [Reordered.lt, if_neg hk] at h
      exact h _ rfl
    · intro h
      simp only [Reordered.lt, if_neg (Ne.symm hk)] at h
      exact h _ rfl

theorem wfItems_append {xs ys : List (String × Js)} :
    Js.WFItems (xs ++ ys) ↔ Js.WFItems xs ∧ Js.WFItems ys := by
  induction xs with
  | nil => simp [Js.WFItems]
  | cons p xs ih =>
    obtain ⟨k, x⟩ := p
    simp [Js.WFItems, ih, and_assoc]

theorem reorder_obj_of_items (hs : SortSpec sort) {l m : List (String × Js)}
    (hm : (m.map Prod.fst).Nodup)
    (h : ∀ rs, jsReorderItems sort l = .ok rs → ∃ ss, jsReorderItems sort m = .ok ss ∧ rs.Perm ss)
    {x : Reordered} (hx : jsReorder sort (.obj l) = .ok x) : jsReorder sort (.obj m) = .ok x := by
  obtain ⟨rs, ts, h1, h2, rfl⟩ := jsReorder_obj.1 hx
  obtain ⟨ss, h3, hp⟩ := h rs h1
  obtain ⟨us, h4⟩ := hs.total ss (reorderedItems_comparable hm h3)
  exact jsReorder_obj.2 ⟨ss, us, h3, h4, by rw [(sort_unique hs h2 h4).2 hp]⟩

mutual
theorem deepEq_reorder (hs : SortSpec sort) : ∀ {a b : Js}, a.WF → b.WF → DeepEq a b →
    ∀ x, jsReorder sort a = .ok x ↔ jsReorder sort b = .ok x
  | _, _, _, _, .null, _ => Iff.rfl
  | _, _, _, _, .bool _, _ => Iff.rfl
  | _, _, _, _, .num _, _ => Iff.rfl
  | _, _, _, _, .str _, _ => Iff.rfl
  | _, _, ha, hb, .arr h, x => by
    simp only [Js.WF] at ha hb
    simp only [jsReorder_arr, deepEqAll_reorder hs ha hb h]
  | _, _, ha, hb, .obj h, x => by
    simp only [Js.WF] at ha hb
    have := deepEqItems_reorder hs h ha.2 hb.2
    exact ⟨reorder_obj_of_items hs hb.1 this.1, reorder_obj_of_items hs ha.1 this.2⟩
theorem deepEqAll_reorder (hs : SortSpec sort) : ∀ {l m : List Js}, Js.WFAll l → Js.WFAll m →
    DeepEqAll l m → ∀ rs, jsReorderAll sort l = .ok rs ↔ jsReorderAll sort m = .ok rs
  | _, _, _, _, .nil, _ => Iff.rfl
  | _, _, ha, hb, .cons h hrest, rs => by
    simp only [Js.WFAll] at ha hb
    simp only [jsReorderAll_cons, deepEq_reorder hs ha.1 hb.1 h,
      deepEqAll_reorder hs ha.2 hb.2 hrest]
theorem deepEqItems_reorder (hs : SortSpec sort) : ∀ {l m : List (String × Js)},
    DeepEqItems l m → Js.WFItems l → Js.WFItems m →
    (∀ rs, jsReorderItems sort l = .ok rs → ∃ ss, jsReorderItems sort m = .ok ss ∧ rs.Perm ss) ∧
    (∀ rs, jsReorderItems sort m = .ok rs → ∃ ss, jsReorderItems sort l = .ok ss ∧ rs.Perm ss)
  | _, _, .nil, _, _ => ⟨fun rs h => ⟨rs, h, List.Perm.refl _⟩, fun rs h => ⟨rs, h, List.Perm.refl _⟩⟩
  | _, _, .cons (k := k) (ys := ys) (zs := zs) h hrest, ha, hb => by
    simp only [Js.WFItems] at ha
    rw [wfItems_append] at hb
    simp only [Js.WFItems] at hb
    have hv := deepEq_reorder hs ha.1 hb.2.1 h
    have hr := deepEqItems_reorder hs hrest ha.2 (wfItems_append.2 ⟨hb.1, hb.2.2⟩)
    constructor
    · intro rs h1
      obtain ⟨r, rs', hr1, hrs, rfl⟩ := jsReorderItems_cons.1 h1
      obtain ⟨ss, hss, hp⟩ := hr.1 rs' hrs
      obtain ⟨as, bs, h2, h3, rfl⟩ := jsReorderItems_append.1 hss
      exact ⟨as ++ .item k r :: bs, jsReorderItems_append.2
        ⟨as, .item k r :: bs, h2, jsReorderItems_cons.2 ⟨r, bs, (hv r).1 hr1, h3, rfl⟩, rfl⟩,
        (List.Perm.cons _ hp).trans List.perm_middle.symm⟩
    · intro rs h1
      obtain ⟨as, bs, h2, h3, rfl⟩ := jsReorderItems_append.1 h1
      obtain ⟨r, bs', hr1, hrs, rfl⟩ := jsReorderItems_cons.1 h3
      obtain ⟨ss, hss, hp⟩ := hr.2 (as ++ bs') (jsReorderItems_append.2 ⟨as, bs', h2, hrs, rfl⟩)
      exact ⟨.item k r :: ss, jsReorderItems_cons.2 ⟨r, ss, (hv r).2 hr1, hss, rfl⟩,
        List.perm_middle.trans (List.Perm.cons _ hp)⟩
end

/-! ### Partners -/

theorem SameItems.partner : ∀ {l m : List (String × Js)} {k : String} {x : Js}, SameItems l m →
    (k, x) ∈ l → ∃ y, (k, y) ∈ m ∧ SameJs x y
  | _, _, k, x, .nil, h => by simp at h
  | _, _, k, x, .cons (y := y') (ys := ys) (zs := zs) hxy hrest, h => by
    rcases List.mem_cons.1 h with h | h
    · cases h
      exact ⟨y', by simp, hxy⟩
    · obtain ⟨y, hy, hs⟩ := SameItems.partner hrest h
      refine ⟨y, ?_, hs⟩
      rcases List.mem_append.1 hy with hy | hy
      · exact List.mem_append_left _ hy
      · exact List.mem_append_right _ (List.mem_cons_of_mem _ hy)

theorem SameAll.partner : ∀ {l m : List Js} {x : Js}, SameAll l m → x ∈ l →
    ∃ y ∈ m, SameJs x y
  | _, _, x, .nil, h => by simp at h
  | _, _, x, .cons (y := y') (ys := ys) (zs := zs) hxy hrest, h => by
    rcases List.mem_cons.1 h with h | h
    · cases h
      exact ⟨y', by simp, hxy⟩
    · obtain ⟨y, hy, hs⟩ := SameAll.partner hrest h
      refine ⟨y, ?_, hs⟩
      rcases List.mem_append.1 hy with hy | hy
      · exact List.mem_append_left _ hy
      · exact List.mem_append_right _ (List.mem_cons_of_mem _ hy)

/-! ### A sort -/

mutual
theorem Reordered.lt_swap : ∀ x y : Reordered, x.lt y = .ok true → y.lt x = .ok false
  | .null, y => by cases y <;> simp [Reordered.lt]
  | .num p, y => by
    cases y <;> simp [Reordered.lt]
    exact fun h => le_of_lt h
  | .str s, y => by
    cases y <;> simp only [Reordered.lt, reduceCtorEq, false_implies]
    simp only [Except.ok.injEq, decide_eq_false_iff_not, decide_eq_true_eq, not_lt]
    exact fun h => le_of_lt h
  | .list l, y => by
    cases y <;> simp only [Reordered.lt, reduceCtorEq, false_implies]
    exact Reordered.lts_swap l _
  | .item k v, y => by
    cases y with
    | item k' v' =>
      simp only [Reordered.lt]
      by_cases hk : k = k'
      · subst hk
        simp only [if_true]
        by_cases hv : v = v'
        · subst hv; simp [Reordered.beq_self]
        · rw [Reordered.beq_false hv, Reordered.beq_false (Ne.symm hv)]
          exact Reordered.lt_swap v v'
      · rw [if_neg hk, if_neg (Ne.symm hk)]
        simp only [Except.ok.injEq, decide_eq_false_iff_not, decide_eq_true_eq, not_lt]
        exact fun h => le_of_lt h
    | _ => simp [Reordered.lt]
theorem Reordered.lts_swap : ∀ l m : List Reordered, Reordered.lts l m = .ok true →
    Reordered.lts m l = .ok false
  | [], m => by cases m <;> simp [Reordered.lts]
  | x :: xs, m => by
    cases m with
    | nil => simp [Reordered.lts]
    | cons y ys =>
      simp only [Reordered.lts]
      by_cases hx : x = y
      · subst hx
        simp only [Reordered.beq_self, if_true]
        exact Reordered.lts_swap xs ys
      · rw [Reordered.beq_false hx, Reordered.beq_false (Ne.symm hx)]
        exact Reordered.lt_swap x y
end

theorem isChain_cons' {α : Type} {R : α → α → Prop} {a : α} {l : List α} :
    (a :: l).IsChain R ↔ (∀ y ∈ l.head?, R a y) ∧ l.IsChain R := by
  cases l with
  | nil => simp
  | cons b l => simp

/-- Insertion into a sorted list. -/
def insertReordered (x : Reordered) : List Reordered → Except Err (List Reordered)
  | [] => .ok [x]
  | y :: ys =>
    match y.lt x with
    | .error e => .error e
    | .ok true => (insertReordered x ys).map (y :: ·)
    | .ok false => .ok (x :: y :: ys)

/-- A sort by insertion. -/
def insertionSort : SortFn
  | [] => .ok []
  | x :: xs =>
    match insertionSort xs with
    | .error e => .error e
    | .ok ys => insertReordered x ys

theorem insertReordered_perm (x : Reordered) : ∀ l m, insertReordered x l = .ok m →
    m.Perm (x :: l)
  | [], m, h => by simp [insertReordered] at h; subst h; exact List.Perm.refl _
  | y :: ys, m, h => by
    simp only [insertReordered] at h
    split at h
    · cases h
    · cases hi : insertReordered x ys with
      | error e => rw [hi] at h; cases h
      | ok zs =>
        rw [hi] at h
        cases h
        exact (List.Perm.cons y (insertReordered_perm x ys zs hi)).trans (List.Perm.swap x y ys)
    · cases h; exact List.Perm.refl _

theorem insertReordered_chain (x : Reordered) : ∀ l m, insertReordered x l = .ok m →
    l.IsChain (fun x y => y.lt x = .ok false) → m.IsChain (fun x y => y.lt x = .ok false) ∧
    ∀ z, z.lt x = .ok true → (∀ y ∈ l.head?, y.lt z = .ok false) →
      ∀ y ∈ m.head?, y.lt z = .ok false
  | [], m, h, _ => by
    simp [insertReordered] at h; subst h
    refine ⟨by simp, fun z hz _ y hy => ?_⟩
    simp at hy; subst hy
    exact Reordered.lt_swap _ _ hz
  | y :: ys, m, h, hc => by
    simp only [insertReordered] at h
    split at h
    · cases h
    · rename_i hyx
      cases hi : insertReordered x ys with
      | error e => rw [hi] at h; cases h
      | ok zs =>
        rw [hi] at h
        cases h
        have hc' := isChain_cons'.1 hc
        obtain ⟨h1, h2⟩ := insertReordered_chain x ys zs hi hc'.2
        refine ⟨isChain_cons'.2 ⟨h2 y hyx hc'.1, h1⟩, fun z _ hl w hw => ?_⟩
        simp at hw; subst hw
        exact hl _ (by simp)
    · rename_i hyx
      cases h
      refine ⟨isChain_cons'.2 ⟨by simpa using hyx, hc⟩, fun z hz _ y hy => ?_⟩
      simp at hy; subst hy
      exact Reordered.lt_swap _ _ hz

theorem insertReordered_total (x : Reordered) : ∀ l : List Reordered,
    (∀ y ∈ l, ¬ Raises (y.lt x)) → ∃ m, insertReordered x l = .ok m
  | [], _ => ⟨_, rfl⟩
  | y :: ys, h => by
    simp only [insertReordered]
    cases hy : y.lt x with
    | error e => exact absurd (fun b hb => by rw [hy] at hb; cases hb) (h y (by simp))
    | ok b =>
      cases b with
      | false => exact ⟨_, rfl⟩
      | true =>
        obtain ⟨m, hm⟩ := insertReordered_total x ys (fun z hz => h z (List.mem_cons_of_mem _ hz))
        exact ⟨y :: m, by simp [hm, Except.map]⟩

theorem insertionSort_perm : ∀ l m, insertionSort l = .ok m → m.Perm l
  | [], m, h => by simp [insertionSort] at h; subst h; exact List.Perm.refl _
  | x :: xs, m, h => by
    simp only [insertionSort] at h
    split at h
    · cases h
    · rename_i ys hys
      exact (insertReordered_perm x ys m h).trans ((insertionSort_perm xs ys hys).cons x)

theorem insertionSort_chain : ∀ l m, insertionSort l = .ok m →
    m.IsChain (fun x y => y.lt x = .ok false)
  | [], m, h => by simp [insertionSort] at h; subst h; simp
  | x :: xs, m, h => by
    simp only [insertionSort] at h
    split at h
    · cases h
    · rename_i ys hys
      exact (insertReordered_chain x ys m h (insertionSort_chain xs ys hys)).1

theorem insertionSort_total : ∀ l : List Reordered,
    l.Pairwise (fun x y => ¬ Raises (x.lt y) ∧ ¬ Raises (y.lt x)) →
    ∃ m, insertionSort l = .ok m
  | [], _ => ⟨[], rfl⟩
  | x :: xs, h => by
    obtain ⟨h1, h2⟩ := List.pairwise_cons.1 h
    obtain ⟨ys, hys⟩ := insertionSort_total xs h2
    obtain ⟨m, hm⟩ := insertReordered_total x ys
      (fun y hy => (h1 y ((insertionSort_perm xs ys hys).mem_iff.1 hy)).2)
    exact ⟨m, by simp only [insertionSort, hys, hm]⟩

theorem insertionSort_spec : SortSpec insertionSort where
  perm := insertionSort_perm
  sorted := insertionSort_chain
  total := insertionSort_total
  raises := by
    intro l hl h
    match l, hl, h with
    | x :: y :: zs, _, h =>
      rw [insertionSort]
      cases hs : insertionSort (y :: zs) with
      | error e => exact ⟨e, rfl⟩
      | ok ys =>
        have hp := insertionSort_perm _ _ hs
        cases ys with
        | nil => exact absurd hp.length_eq (by simp)
        | cons w ws =>
          have := ((List.pairwise_cons.1 h).1 w (hp.mem_iff.1 (by simp))).2
          simp only [insertReordered]
          cases hw : w.lt x with
          | error e => exact ⟨e, rfl⟩
          | ok b => exact absurd hw (this b)

/-! ### The check of files -/

theorem jsReorderAll_nums (l : List ℚ) :
    jsReorderAll sort (l.map .num) = .ok (l.map .num) := by
  induction l with
  | nil => rfl
  | cons q l ih => simp [jsReorderAll, jsReorder, ih, Except.map]

theorem nums_comparable : ∀ l : List ℚ, (l.map Reordered.num).Pairwise
    (fun x y => ¬ Raises (x.lt y) ∧ ¬ Raises (y.lt x))
  | [] => List.Pairwise.nil
  | q :: l => by
    refine List.Pairwise.cons (fun y hy => ?_) (nums_comparable l)
    obtain ⟨p, _, rfl⟩ := List.mem_map.1 hy
    exact ⟨fun h => h _ rfl, fun h => h _ rfl⟩

theorem lists_raise (hs : SortSpec sort) {l : List Js} {rs : List Reordered}
    (h : jsReorderAll sort l = .ok rs) (h2 : 2 ≤ l.length)
    (hr : rs.Pairwise (fun x y => Raises (x.lt y) ∧ Raises (y.lt x))) (b : Js) :
    Raises (jsonDeepComp sort (.arr l) b) := by
  obtain ⟨e, he⟩ := hs.raises rs (by rw [jsReorderAll_length _ _ h]; exact h2) hr
  simp [Raises, jsonDeepComp, jsReorder, h, he, Except.map]

theorem SameJs.inv_obj {l m : List (String × Js)} (h : SameJs (.obj l) (.obj m)) :
    SameItems l m := by
  cases h with
  | number h _ => cases h
  | obj h => exact h

theorem SameJs.inv_arr {l m : List Js} (h : SameJs (.arr l) (.arr m)) : SameAll l m := by
  cases h with
  | number h _ => cases h
  | arr h => exact h

theorem splitExt_of_suffix {name : String} {pre e : List Char} (hname : name.toList = pre ++ '.' :: e)
    (hhead : ∃ c ∈ pre, c ≠ '.') (he : '.' ∉ e) :
    splitExt name = String.ofList ('.' :: e.map Char.toLower) := by
  have hdrop : ∃ pre', name.toList.dropWhile (· = '.') = pre' ++ '.' :: e := by
    rw [hname]
    clear hname
    induction pre with
    | nil => simp at hhead
    | cons c pre ih =>
      by_cases hc : c = '.'
      · subst hc
        obtain ⟨pre', h'⟩ := ih (by simpa using hhead)
        exact ⟨pre', by simpa using h'⟩
      · exact ⟨c :: pre, by simp [hc]⟩
  obtain ⟨pre', h'⟩ := hdrop
  simp only [splitExt, h']
  rw [if_pos (by simp)]
  have : ((pre' ++ '.' :: e).reverse.takeWhile (· ≠ '.')) = e.reverse := by
    rw [List.reverse_append, List.reverse_cons, List.append_assoc, List.takeWhile_append_of_pos]
    · simp
    · intro c hc
      simp only [List.mem_reverse] at hc
      simp only [decide_eq_true_eq]
      exact fun e' => he (e' ▸ hc)
  rw [this, List.reverse_reverse]

theorem checkFiles_success {Img : Type} {score : Img → Img → Except Err ℚ}
    {out : String → Option (OutFile Img)} : ∀ l : List (String × OutFile Img),
    checkFiles sort score out l = .success ↔ ∀ f ∈ l, ∃ y, out f.1 = some y ∧
      verifyContent sort score (splitExt f.1) f.2 y = .ok true
  | [] => by simp [checkFiles]
  | (name, x) :: rest => by
    simp only [checkFiles, List.forall_mem_cons]
    cases ho : out name with
    | none => simp
    | some y =>
      simp only [Option.some.injEq]
      cases hv : verifyContent sort score (splitExt name) x y with
      | error e => simp [hv]
      | ok b =>
        cases b with
        | true => simp [hv, checkFiles_success rest]
        | false => simp [hv]

theorem visible_ext {name : String} {c : Char} {cs e : List Char} (hn : name.toList = c :: cs)
    (hc : c ≠ '.') (hsuf : '.' :: e <:+ name.toList) (he : '.' ∉ e) :
    splitExt name = String.ofList ('.' :: e.map Char.toLower) := by
  obtain ⟨pre, hpre⟩ := hsuf
  refine splitExt_of_suffix hpre.symm ?_ he
  cases pre with
  | nil => rw [hn] at hpre; cases hpre; exact absurd rfl hc
  | cons p pre => rw [hn] at hpre; cases hpre; exact ⟨c, by simp, hc⟩

theorem not_both {l : List Char} : ¬ (".png".toList <:+ l ∧ ".json".toList <:+ l) := by
  rintro ⟨⟨a, ha⟩, ⟨b, hb⟩⟩
  have := congrArg List.getLast? (ha.trans hb.symm)
  revert this
  simp

theorem isChecked_iff (name : String) : isChecked name = true ↔
    (".png".toList <:+ name.toList ∨ ".json".toList <:+ name.toList) := by
  simp only [isChecked, Bool.or_eq_true, List.isSuffixOf_iff_suffix]

end Verif
