import Verif.Lemmas.Ragged
/-
C35: a ragged array is a list of lists.
-/

namespace Verif

variable {α : Type}

/-! ### Construction -/

/-- From a non-empty list of lists (some may be empty): the ragged array stands for it. -/
theorem ragged_of_lists (ls : List (List α)) (h : ls ≠ []) :
    ∃ r, raggedLists ls = .ok r ∧ RStands r ls := by
  refine ⟨⟨ls.flatten, cumItems 0 (lens ls)⟩, ?_, (stands_iff _ _).2 ⟨rfl, rfl⟩⟩
  unfold raggedLists raggedSizes
  rw [if_neg h, if_neg]
  · rfl
  · have := sum_lens ls
    simp only [lens] at this
    simp [this]

/-- From data and sizes that add up: the ragged array stands for the data cut in these sizes. -/
theorem ragged_of_sizes (data : List α) (ns : List Nat) (h : ns.sum = data.length) :
    ∃ r ls, raggedSizes data (ns.map (fun n : Nat => (n : Int))) = .ok r ∧ RStands r ls ∧
      ls.flatten = data ∧ ls.map List.length = ns := by
  have hf := cutSizes_flatten data 0 ns
  simp only [List.take_zero, List.nil_append, Nat.zero_add] at hf
  rw [h, List.take_length] at hf
  have hl := cutSizes_lengths data 0 ns (by omega)
  refine ⟨⟨data, cumItems 0 (ns.map (fun n : Nat => (n : Int)))⟩,
    cutSizes data ((0 : Nat) : Int) (ns.map (fun n : Nat => (n : Int))), ?_, ?_, hf, hl⟩
  · unfold raggedSizes
    rw [if_neg]
    have : (ns.map (fun n : Nat => (n : Int))).sum = (ns.sum : Int) := by
      clear h hf hl
      induction ns with
      | nil => rfl
      | cons n ns ih => simp only [List.map_cons, List.sum_cons, ih]; push_cast; rfl
    simp [this, h]
  · rw [stands_iff]
    refine ⟨hf.symm, ?_⟩
    show cumItems 0 _ = cumItems 0 _
    congr 1
    have := congrArg (List.map (fun n : Nat => (n : Int))) hl
    rw [List.map_map] at this
    exact this.symm

/-- Sizes that do not add up are refused. -/
theorem ragged_sizes_refused (data : List α) (sizes : List Int) (h : sizes.sum ≠ data.length) :
    raggedSizes data sizes = .error .valueError := by
  unfold raggedSizes
  rw [if_pos h]

/-- One positive size that divides the number of elements: as many items of this size. -/
theorem ragged_of_size (data : List α) (size count : Nat) (hs : 0 < size) (hc : 0 < count)
    (h : data.length = count * size) :
    ∃ r ls, raggedSize data size = .ok r ∧ RStands r ls ∧
      ls.flatten = data ∧ ls.map List.length = List.replicate count size := by
  have hsum : (List.replicate count size).sum = data.length := by
    rw [List.sum_replicate_nat, h]
  obtain ⟨r, ls, h1, h2, h3, h4⟩ := ragged_of_sizes data (List.replicate count size) hsum
  refine ⟨r, ls, ?_, h2, h3, h4⟩
  have hdiv : Int.fdiv (data.length : Int) (size : Int) = (count : Int) := by
    rw [Int.fdiv_eq_ediv_of_nonneg _ (by omega), h]
    push_cast
    exact Int.mul_ediv_cancel _ (by omega)
  have hmod : Int.fmod (data.length : Int) (size : Int) = 0 := by
    rw [Int.fmod_eq_emod_of_nonneg _ (by omega), h]
    push_cast
    exact Int.mul_emod_left _ _
  have hdiv2 : Int.fdiv (data.length : Int) (count : Int) = (size : Int) := by
    rw [Int.fdiv_eq_ediv_of_nonneg _ (by omega), h]
    push_cast
    exact Int.mul_ediv_cancel_left _ (by omega)
  unfold raggedSize
  rw [if_neg (by omega), if_neg (by simp [hmod])]
  simp only [hdiv, hdiv2]
  rw [if_neg (by omega), if_neg (by omega)]
  unfold raggedSizes at h1
  split at h1
  · cases h1
  · rw [Int.toNat_natCast]
    simpa using h1

/-! ### Measuring -/

/-- `len` and `itemsize`. -/
theorem ragged_measures {r : Ragged α} {ls : List (List α)} (h : RStands r ls) :
    r.len = ls.length ∧ r.itemsize = ls.map (fun l => (l.length : Int)) := by
  refine ⟨stands_length h, ?_⟩
  apply List.ext_getElem?
  intro i
  unfold Ragged.itemsize
  rw [List.getElem?_map, h.items, List.getElem?_map]
  cases ls[i]? with
  | none => rfl
  | some l => simp

/-! ### Reading -/

/-- Reading one item agrees with the list, for positive and negative indices, and raises where
the list does. -/
theorem ragged_get_int {r : Ragged α} {ls : List (List α)} (h : RStands r ls) (i : Int) :
    r.get (.int i) = npGet ls i := by
  cases hg : npGet ls i with
  | error e =>
    simp only [Ragged.get, keyRows]
    rw [npGet_error (stands_length h).symm hg]
    rfl
  | ok l =>
    obtain ⟨j, hj, he⟩ := npGet_ok_iff.1 hg
    have hrow := h.items j
    rw [hj] at hrow
    have hi : npGet r.items i = .ok
        ((((ls.take j).flatten.length : Nat) : Int),
         (((ls.take j).flatten.length + l.length : Nat) : Int)) :=
      npGet_ok_iff.2 ⟨j, hrow, by rw [stands_length h]; exact he⟩
    simp only [Ragged.get, keyRows]
    rw [hi]
    simp only [bind, Except.bind, pure, Except.pure, rowsRange, List.flatMap_cons, List.flatMap_nil,
      List.append_nil, List.foldl_cons, List.foldl_nil]
    rw [min_eq_left (by push_cast; omega), max_eq_right (by push_cast; omega), pySlice_nat, h.data]
    obtain ⟨hlt, rfl⟩ := List.getElem?_eq_some_iff.1 hj
    have ht : (ls.take j).flatten.length + ls[j].length = (ls.take (j + 1)).flatten.length := by
      rw [List.take_succ_eq_append_getElem hlt, List.flatten_append, List.length_append]
      simp
    rw [ht, flatten_slice ls j (j + 1) (by omega)]
    have := int_as_slice hj
    rw [pySlice_nat] at this
    rw [this]
    simp

/-- Reading a slice gives the items of the slice of the list, one after the other. -/
theorem ragged_get_slice {r : Ragged α} {ls : List (List α)} (h : RStands r ls) (a b : Int)
    (hne : pySlice ls a b ≠ []) :
    r.get (.slice a b 1) = .ok (pySlice ls a b).flatten := by
  obtain ⟨hab, hr⟩ := slice_rows h a b hne
  simp only [Ragged.get, keyRows, everyNth_one, bind, Except.bind, hr, pure, Except.pure]
  rw [pySlice_nat, h.data, flatten_slice _ _ _ hab, pySlice_clamp]

/-- Reading a list of items gives them one after the other, in the order of the list. -/
theorem ragged_get_list {r : Ragged α} {ls : List (List α)} (h : RStands r ls) (is : List Int)
    (sel : List (List α)) (hs : is.mapM (npGet ls) = .ok sel) :
    r.get (.list is) = .ok sel.flatten := by
  have key : ∀ (is : List Int) (sel : List (List α)), is.mapM (npGet ls) = .ok sel →
      ∃ rows, is.mapM (npGet r.items) = .ok rows ∧
        (rows.flatMap rowIndices).mapM (npGet r.data) = .ok sel.flatten := by
    intro is
    induction is with
    | nil => intro sel hs; cases hs; exact ⟨[], rfl, rfl⟩
    | cons i is ih =>
      intro sel hs
      rw [List.mapM_cons] at hs
      cases hg : npGet ls i with
      | error e => rw [hg] at hs; cases hs
      | ok l =>
        cases hm : is.mapM (npGet ls) with
        | error e => rw [hg, hm] at hs; cases hs
        | ok sel' =>
          rw [hg, hm] at hs
          cases hs
          obtain ⟨rows, hr1, hr2⟩ := ih sel' hm
          obtain ⟨j, hj, he⟩ := npGet_ok_iff.1 hg
          have hrow := h.items j
          rw [hj] at hrow
          have hi : npGet r.items i = .ok
              ((((ls.take j).flatten.length : Nat) : Int),
               (((ls.take j).flatten.length + l.length : Nat) : Int)) :=
            npGet_ok_iff.2 ⟨j, hrow, by rw [stands_length h]; exact he⟩
          refine ⟨_ :: rows, by rw [List.mapM_cons, hi, hr1]; rfl, ?_⟩
          simp only [List.flatMap_cons, List.flatten_cons]
          rw [List.mapM_append, hr2]
          have hlen : ((((ls.take j).flatten.length + l.length : Nat) : Int) -
              (((ls.take j).flatten.length : Nat) : Int)).toNat = l.length := by push_cast; omega
          rw [rowIndices, hlen]
          have hdat : ∀ n, n ≤ l.length →
              ((List.range n).map (fun i : Nat => (((ls.take j).flatten.length : Nat) : Int) + i)).mapM
                (npGet r.data) = .ok (l.take n) := by
            intro n hn
            induction n with
            | zero => rfl
            | succ n ihn =>
              have hn' : n < l.length := hn
              rw [List.range_succ, List.map_append, List.mapM_append, ihn (by omega)]
              have hx : r.data[(ls.take j).flatten.length + n]? = some l[n] := by
                obtain ⟨hlt, rfl⟩ := List.getElem?_eq_some_iff.1 hj
                have := drop_flatten ls j
                rw [← h.data, List.drop_eq_getElem_cons hlt, List.flatten_cons] at this
                have h2 := congrArg (fun xs => xs[n]?) this
                simp only [List.getElem?_drop] at h2
                rw [h2, List.getElem?_append_left hn', List.getElem?_eq_getElem hn']
              have hg : npGet r.data ((((ls.take j).flatten.length : Nat) : Int) + (n : Int)) =
                  .ok l[n] := by
                have := npGet_nat hx
                push_cast at this ⊢
                exact this
              simp only [List.map_cons, List.map_nil, List.mapM_cons, List.mapM_nil, hg, bind,
                Except.bind, pure, Except.pure]
              rw [List.take_succ_eq_append_getElem hn']
          rw [hdat _ (Nat.le_refl _), List.take_length]
          rfl
  obtain ⟨rows, h1, h2⟩ := key is sel hs
  simp only [Ragged.get, keyIndices, h1, bind, Except.bind, pure, Except.pure]
  exact h2

/-! ### Writing -/

/-- Writing an item of the same length replaces it, and only it. -/
theorem ragged_set_int {r : Ragged α} {ls : List (List α)} (h : RStands r ls) (j : Nat)
    (l v : List α) (hj : ls[j]? = some l) (hv : v.length = l.length) :
    ∃ r', r.set (.int j) v = .ok r' ∧ RStands r' (ls.set j v) := by
  have hrow := h.items j
  rw [hj] at hrow
  obtain ⟨hlt, rfl⟩ := List.getElem?_eq_some_iff.1 hj
  have ht : (ls.take j).flatten.length + ls[j].length = (ls.take (j + 1)).flatten.length := by
    rw [List.take_succ_eq_append_getElem hlt, List.flatten_append, List.length_append]
    simp
  have hs : (ls.take (j + 1)).drop j = [ls[j]] := by
    have := int_as_slice hj
    rw [pySlice_nat] at this
    exact this
  obtain ⟨d, hd1, hd2⟩ := set_slice_core h j (j + 1) (by omega) [v] (by rw [hs]; simp [hv])
  refine ⟨{ r with data := d }, ?_, ?_⟩
  rotate_left
  · have : ls.set j v = ls.take j ++ [v] ++ ls.drop (j + 1) := by
      rw [List.set_eq_take_append_cons_drop, if_pos hlt]; simp
    rw [this]
    exact hd2
  · simp only [Ragged.set, keyRows, npGet_nat hrow, bind, Except.bind, pure, Except.pure, rowsRange,
      List.flatMap_cons, List.flatMap_nil, List.append_nil, List.foldl_cons, List.foldl_nil]
    rw [min_eq_left (by push_cast; omega), max_eq_right (by push_cast; omega), ht]
    simp only [List.flatten_cons, List.flatten_nil, List.append_nil] at hd1
    rw [hd1]

/-- Writing a slice, with items of the same lengths one after the other, replaces these items,
and only these. -/
theorem ragged_set_slice {r : Ragged α} {ls : List (List α)} (h : RStands r ls) (a b : Nat)
    (hab : a < b) (hb : b ≤ ls.length) (vs : List (List α))
    (hv : vs.map List.length = (pySlice ls a b).map List.length) :
    ∃ r', r.set (.slice a b 1) vs.flatten = .ok r' ∧ RStands r' (ls.take a ++ vs ++ ls.drop b) := by
  have hne : pySlice ls a b ≠ [] := by
    rw [pySlice_nat]
    intro hc
    have := congrArg List.length hc
    simp at this
    omega
  obtain ⟨_, hr⟩ := slice_rows h a b hne
  rw [clampTo_nat _ _ (by omega), clampTo_nat _ _ hb] at hr
  rw [pySlice_nat] at hv
  obtain ⟨d, hd1, hd2⟩ := set_slice_core h a b (by omega) vs hv
  refine ⟨_, ?_, hd2⟩
  simp only [Ragged.set, keyRows, everyNth_one, bind, Except.bind, hr, pure, Except.pure, hd1]

/-- What is written is read back, and the other items are as before. -/
theorem ragged_read_back {r : Ragged α} {ls : List (List α)} (h : RStands r ls) (j : Nat)
    (l v : List α) (hj : ls[j]? = some l) (hv : v.length = l.length) :
    ∃ r', r.set (.int j) v = .ok r' ∧ r'.get (.int j) = .ok v ∧
      ∀ k : Nat, k ≠ j → r'.get (.int k) = r.get (.int k) := by
  obtain ⟨r', h1, h2⟩ := ragged_set_int h j l v hj hv
  refine ⟨r', h1, ?_, ?_⟩
  · rw [ragged_get_int h2]
    apply npGet_nat
    rw [List.getElem?_set_self (List.getElem?_eq_some_iff.1 hj).1]
  · intro k hk
    rw [ragged_get_int h2, ragged_get_int h]
    cases hg : ls[k]? with
    | some x =>
      have hs : (ls.set j v)[k]? = some x := by rw [List.getElem?_set_ne (fun h => hk h.symm)]; exact hg
      rw [npGet_nat hg, npGet_nat hs]
    | none =>
      unfold npGet
      have h0 : ¬ ((k : Int) < 0) := by omega
      simp only [if_neg h0, Int.toNat_natCast]
      rw [List.getElem?_set_ne (fun h => hk h.symm)]

/-! ### Where it is not a list of lists -/

def rgdemo : Ragged Nat := ⟨[0, 1, 2, 3, 4, 5], [(0, 1), (1, 3), (3, 6)]⟩

/-- C35 fails: the empty list cannot be made, an empty slice raises, a slice with a step gives
the items in between as well, an item cannot be replaced by one of another length, and negative
sizes are accepted. -/
theorem ragged_is_list_fails :
    raggedLists ([] : List (List Nat)) = .error .indexError ∧
    rgdemo.get (.slice 1 1 1) = .error .valueError ∧
    rgdemo.get (.slice 0 3 2) = .ok [0, 1, 2, 3, 4, 5] ∧
    rgdemo.set (.int 1) [7, 8, 9] = .error .valueError ∧
    (∃ r, raggedSizes [0, 1] [3, -1] = .ok r ∧ r.get (.int 1) = .ok [] ∧ r.itemsize = [3, -1]) := by
  refine ⟨by decide, by decide, by decide, by decide, ⟨_, rfl, by decide, by decide⟩⟩

example : RStands rgdemo [[0], [1, 2], [3, 4, 5]] :=
  (stands_iff _ _).2 ⟨by decide, by decide⟩

example : rgdemo.get (.int (-1)) = .ok [3, 4, 5] ∧ rgdemo.get (.list [2, 0]) = .ok [3, 4, 5, 0] ∧
    rgdemo.get (.slice 1 3 1) = .ok [1, 2, 3, 4, 5] ∧ rgdemo.get (.int 3) = .error .indexError := by
  decide

end Verif
