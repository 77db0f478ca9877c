import Verif.Props.ExactMore
import Verif.Spec.RaggedList
/-
C35: writing several items of a ragged array at once, and what every key gives.
-/

namespace Verif

variable {α : Type}

/-! ### Lemmas -/

/-- Writing numbers one after the other from place `s` on. -/
theorem write_run (d : List α) (s : Nat) (v : List α) (h : s + v.length ≤ d.length) :
    (((List.range v.length).map (fun i : Nat => (s : Int) + i)).zip v).foldlM (fun d (iv : Int × α) => do
      let _ ← npGet d iv.1
      let j : Int := if iv.1 < 0 then iv.1 + d.length else iv.1
      return d.set j.toNat iv.2) d =
      (.ok (d.take s ++ v ++ d.drop (s + v.length)) : Except Err (List α)) := by
  induction v generalizing d s with
  | nil => simp [pure, Except.pure]
  | cons x v ih =>
    rw [List.length_cons] at h
    have hlt : s < d.length := by omega
    rw [List.length_cons, List.range_succ_eq_map, List.map_cons, List.zip_cons_cons, List.foldlM_cons]
    have hg : npGet d ((s : Int) + ((0 : Nat) : Int)) = .ok d[s] := by
      have := npGet_nat (List.getElem?_eq_getElem hlt)
      simpa using this
    simp only [hg, bind, Except.bind, pure, Except.pure]
    have hj : (if (s : Int) + ((0 : Nat) : Int) < 0 then (s : Int) + ((0 : Nat) : Int) + (d.length : Int)
        else (s : Int) + ((0 : Nat) : Int)).toNat = s := by
      rw [if_neg (by omega)]; omega
    rw [hj]
    have hmap : List.map (fun i : Nat => (s : Int) + i) (List.map Nat.succ (List.range v.length)) =
        (List.range v.length).map (fun i : Nat => ((s + 1 : Nat) : Int) + i) := by
      rw [List.map_map]
      apply List.map_congr_left
      intro i _
      simp only [Function.comp]
      push_cast
      omega
    rw [hmap]
    have := ih (d.set s x) (s + 1) (by rw [List.length_set]; omega)
    simp only [bind, Except.bind, pure, Except.pure] at this
    rw [this]
    congr 1
    rw [List.drop_set_of_lt (by omega), List.set_eq_take_append_cons_drop, if_pos hlt,
      show d.take s ++ x :: d.drop (s + 1) = (d.take s ++ [x]) ++ d.drop (s + 1) by simp,
      List.take_append_of_le_length (by simp; omega)]
    rw [List.take_of_length_le (by simp)]
    simp only [List.append_assoc, List.cons_append, List.nil_append]
    congr 4
    omega

/-- Writing numbers at some places, one after the other. -/
def writeAt (d : List α) (ivs : List (Int × α)) : Except Err (List α) :=
  ivs.foldlM (fun d iv => do
    let _ ← npGet d iv.1
    let j : Int := if iv.1 < 0 then iv.1 + d.length else iv.1
    return d.set j.toNat iv.2) d

theorem writeAt_append (d : List α) (a b : List (Int × α)) :
    writeAt d (a ++ b) = (writeAt d a).bind (fun d' => writeAt d' b) := by
  unfold writeAt
  rw [List.foldlM_append]
  rfl

theorem writeIndices_eq (d : List α) (ix : List Int) (v : List α) :
    writeIndices d ix v = (stretch ix.length v).bind (fun w => writeAt d (ix.zip w)) := rfl

/-- One item written as a run of numbers. -/
theorem write_item {r : Ragged α} {ls : List (List α)} (h : RStands r ls) {j : Nat} {l v : List α}
    (hj : ls[j]? = some l) (hv : v.length = l.length) :
    ∃ d, writeAt r.data ((rowIndices ((((ls.take j).flatten.length : Nat) : Int),
        (((ls.take j).flatten.length + l.length : Nat) : Int))).zip v) = .ok d ∧
      RStands { r with data := d } (ls.set j v) := by
  obtain ⟨hlt, rfl⟩ := List.getElem?_eq_some_iff.1 hj
  have ht : (ls.take j).flatten.length + ls[j].length = (ls.take (j + 1)).flatten.length := by
    rw [List.take_succ_eq_append_getElem hlt, List.flatten_append, List.length_append]
    simp
  have hlb := take_flatten_length_le ls (j + 1)
  have hn : ((((ls.take j).flatten.length + ls[j].length : Nat) : Int) -
      (((ls.take j).flatten.length : Nat) : Int)).toNat = v.length := by push_cast; omega
  unfold rowIndices writeAt
  dsimp only
  rw [hn, write_run _ _ _ (by rw [h.data]; omega)]
  refine ⟨_, rfl, ?_⟩
  rw [stands_iff]
  obtain ⟨hd, hi⟩ := (stands_iff r ls).1 h
  constructor
  · show _ = (ls.set j v).flatten
    rw [List.set_eq_take_append_cons_drop, if_pos hlt, hd, hv, ht, take_flatten, drop_flatten]
    simp
  · show r.items = _
    rw [hi]
    congr 1
    unfold lens
    rw [List.map_set, hv]
    apply List.ext_getElem? 
    intro k
    rw [List.getElem?_set]
    split
    · rename_i hk
      subst hk
      rw [if_pos (by simpa using hlt)]
      simp [hlt]
    · rfl

/-- The rows of a list of items. -/
theorem rows_of_list {r : Ragged α} {ls : List (List α)} (h : RStands r ls) {i : Int} {l : List α}
    (hg : npGet ls i = .ok l) :
    ∃ j : Nat, ls[j]? = some l ∧ (if i < 0 then i + (ls.length : Int) else i) = j ∧
      npGet r.items i = .ok ((((ls.take j).flatten.length : Nat) : Int),
        (((ls.take j).flatten.length + l.length : Nat) : Int)) := by
  obtain ⟨j, hj, he⟩ := npGet_ok_iff.1 hg
  have hrow := h.items j
  rw [hj] at hrow
  exact ⟨j, hj, he, npGet_ok_iff.2 ⟨j, hrow, by rw [stands_length h]; exact he⟩⟩

theorem rowIndices_length (s n : Nat) : (rowIndices ((s : Int), ((s + n : Nat) : Int))).length = n := by
  unfold rowIndices
  simp

/-! ### Statements -/

/-- **C35.** Writing a list of items, with values of the same lengths one after the other, replaces these
items in turn, and only these. -/
theorem ragged_set_list {r : Ragged α} {ls : List (List α)} (h : RStands r ls) (is : List Int)
    (sel vs : List (List α)) (hs : is.mapM (npGet ls) = .ok sel)
    (hv : vs.map List.length = sel.map List.length) :
    ∃ r', r.set (.list is) vs.flatten = .ok r' ∧ RStands r' (assignItems ls is vs) := by
  have key : ∀ (is : List Int) (sel vs : List (List α)) (r1 : Ragged α) (ls1 : List (List α)),
      RStands r1 ls1 → r1.items = r.items → lens ls1 = lens ls →
      is.mapM (npGet ls) = .ok sel → vs.map List.length = sel.map List.length →
      ∃ rows d, is.mapM (npGet r.items) = .ok rows ∧
        (rows.flatMap rowIndices).length = vs.flatten.length ∧
        writeAt r1.data ((rows.flatMap rowIndices).zip vs.flatten) = .ok d ∧
        RStands { r1 with data := d }
          ((is.zip vs).foldl (fun acc p => acc.set (placeOf ls.length p.1) p.2) ls1) := by
    intro is
    induction is with
    | nil =>
      intro sel vs r1 ls1 h1 hi hl hs hv
      cases hs
      have : vs = [] := by simpa using hv
      subst this
      exact ⟨[], r1.data, rfl, rfl, rfl, h1⟩
    | cons i is ih =>
      intro sel vs r1 ls1 h1 hi hl hs hv
      rw [List.mapM_cons] at hs
      cases hg : npGet ls i with
      | error e => rw [hg] at hs; cases hs
      | ok l =>
        cases hm : is.mapM (npGet ls) with
        | error e => rw [hg, hm] at hs; cases hs
        | ok sel' =>
          rw [hg, hm] at hs
          cases hs
          match vs, hv with
          | v :: vs, hv =>
            simp only [List.map_cons, List.cons.injEq] at hv
            have hlen1 : ls1.length = ls.length := by
              have := congrArg List.length hl
              simpa [lens] using this
            obtain ⟨j, hj, he, hrow⟩ := rows_of_list h hg
            have hjlt := (List.getElem?_eq_some_iff.1 hj).1
            have hl1 : (ls1[j]'(by omega)).length = l.length := by
              have := congrArg (fun x => x[j]?) hl
              simp only [lens, List.getElem?_map, hj, List.getElem?_eq_getElem (show j < ls1.length by omega),
                Option.map_some, Option.some.injEq] at this
              omega
            have htk : (ls1.take j).flatten.length = (ls.take j).flatten.length := by
              have := congrArg (fun x => (x.take j).sum) hl
              have e1 : (lens ls1).take j = lens (ls1.take j) := by simp [lens]
              have e2 : (lens ls).take j = lens (ls.take j) := by simp [lens]
              rw [e1, e2, sum_lens, sum_lens] at this
              omega
            obtain ⟨d1, hd1, hst⟩ := write_item h1
              (List.getElem?_eq_getElem (show j < ls1.length by omega)) (v := v) (by rw [hl1, hv.1])
            rw [hl1, htk] at hd1
            have hls1 : lens (ls1.set j v) = lens ls := by
              rw [← hl]
              unfold lens
              rw [List.map_set]
              apply List.ext_getElem?
              intro k
              rw [List.getElem?_set]
              split
              · rename_i hk
                subst hk
                rw [if_pos (by simp; omega), List.getElem?_map,
                  List.getElem?_eq_getElem (show j < ls1.length by omega), Option.map_some, hl1, hv.1]
              · rfl
            obtain ⟨rows, d, hr1, hr2, hr3, hr4⟩ :=
              ih sel' vs { r1 with data := d1 } (ls1.set j v) hst hi hls1 hm hv.2
            refine ⟨_ :: rows, d, by rw [List.mapM_cons, hrow, hr1]; rfl, ?_, ?_, ?_⟩
            · rw [List.flatMap_cons, List.length_append, rowIndices_length, hr2, List.flatten_cons,
                List.length_append, hv.1]
            · rw [List.flatMap_cons, List.flatten_cons, List.zip_append (by rw [rowIndices_length, hv.1]),
                writeAt_append, hd1]
              exact hr3
            · rw [List.zip_cons_cons, List.foldl_cons]
              have hp : placeOf ls.length i = j := by unfold placeOf; rw [he]; omega
              dsimp only
              rw [hp]
              exact hr4
  obtain ⟨rows, d, h1, h2, h3, h4⟩ := key is sel vs r ls h rfl rfl hs hv
  refine ⟨{ r with data := d }, ?_, h4⟩
  simp only [Ragged.set, keyIndices, h1, bind, Except.bind, pure, Except.pure]
  rw [writeIndices_eq, h2]
  have : stretch vs.flatten.length vs.flatten = .ok vs.flatten := by
    unfold stretch
    rw [if_pos rfl]
  rw [this]
  simp only [Except.bind]
  rw [h3]

/-- **C35.** An index out of range in a list raises `IndexError`, in reading and in writing. -/
theorem ragged_list_error {r : Ragged α} {ls : List (List α)} (h : RStands r ls) (is : List Int) (i : Int)
    (hi : i ∈ is) (hb : (i < -(ls.length : Int)) ∨ (ls.length : Int) ≤ i) (v : List α) :
    r.get (.list is) = .error .indexError ∧ r.set (.list is) v = .error .indexError := by
  have hitems : ∀ k e, npGet r.items k = .error e → e = .indexError := by
    intro k e hk
    unfold npGet at hk
    dsimp only at hk
    generalize (if k < 0 then k + (r.items.length : Int) else k) = j at hk
    by_cases hj : j < 0
    · rw [if_pos hj] at hk; cases hk; rfl
    · rw [if_neg hj] at hk
      cases hx : r.items[j.toNat]? with
      | some x => rw [hx] at hk; cases hk
      | none => rw [hx] at hk; cases hk; rfl
  have hbad : npGet r.items i = .error .indexError := by
    cases hg : npGet r.items i with
    | error e => rw [hitems i e hg]
    | ok x =>
      obtain ⟨j, hj, he⟩ := npGet_ok_iff.1 hg
      have hlt := (List.getElem?_eq_some_iff.1 hj).1
      rw [stands_length h] at hlt he
      split at he <;> omega
  have hm : is.mapM (npGet r.items) = .error .indexError := by
    clear hb
    induction is with
    | nil => simp at hi
    | cons k is ih =>
      rw [List.mapM_cons]
      cases hg : npGet r.items k with
      | error e => rw [hitems k e hg]; rfl
      | ok x =>
        rcases List.mem_cons.1 hi with rfl | hi'
        · rw [hbad] at hg; cases hg
        · rw [ih hi']; rfl
  constructor <;> simp only [Ragged.get, Ragged.set, keyIndices, hm, bind, Except.bind]

/-- **C35.** Iterating gives the items in order: every index below the length gives its item, and the length
raises the `IndexError` that ends a loop. -/
theorem ragged_iterates {r : Ragged α} {ls : List (List α)} (h : RStands r ls) :
    ((List.range ls.length).map (fun i : Nat => r.get (.int i))) = ls.map Except.ok ∧
      r.get (.int (ls.length : Nat)) = .error .indexError := by
  constructor
  · apply List.ext_getElem (by simp)
    intro k h1 h2
    rw [List.getElem_map, List.getElem_map, List.getElem_range, ragged_get_int h]
    exact npGet_nat (List.getElem?_eq_getElem _)
  · rw [ragged_get_int h]
    unfold npGet
    dsimp only
    rw [if_neg (by split <;> omega), if_neg (by omega)]
    simp

/-- **C35.** Which numbers cannot be cut into items of one size: 0, a size that does not divide the number of
elements, a negative size, and no elements at all. -/
theorem ragged_size_refused (data : List α) (size : Int) :
    (size = 0 → raggedSize data size = .error .zeroDivision) ∧
    (size ≠ 0 → ¬ size ∣ (data.length : Int) → raggedSize data size = .error .valueError) ∧
    (size ≠ 0 → data = [] → raggedSize data size = .error .zeroDivision) ∧
    (size < 0 → data ≠ [] → raggedSize data size = .error .valueError) := by
  have hmod : ∀ s : Int, s ≠ 0 → (Int.fmod data.length s ≠ 0 ↔ ¬ s ∣ (data.length : Int)) := by
    intro s hs
    exact not_congr Int.dvd_iff_fmod_eq_zero.symm
  refine ⟨?_, ?_, ?_, ?_⟩
  · intro h
    unfold raggedSize
    rw [if_pos h]
  · intro h1 h2
    unfold raggedSize
    rw [if_neg h1, if_pos ((hmod size h1).2 h2)]
  · rintro h1 rfl
    unfold raggedSize
    rw [if_neg h1]
    simp
  · intro h1 h2
    unfold raggedSize
    rw [if_neg (by omega)]
    by_cases h3 : Int.fmod data.length size ≠ 0
    · rw [if_pos h3]
    · rw [if_neg h3]
      have hpos : 0 < data.length := List.length_pos_of_ne_nil h2
      have he := Int.mul_fdiv_add_fmod (data.length : Int) size
      have : Int.fdiv (data.length : Int) size < 0 := by
        apply Classical.byContradiction
        intro hq
        have := Int.mul_nonneg (show 0 ≤ -size by omega) (show 0 ≤ Int.fdiv (data.length : Int) size by omega)
        rw [Int.neg_mul] at this
        omega
      simp only
      rw [if_pos this]

example : rgdemo.set (.list [2, 0]) [7, 8, 9, 6] = .ok ⟨[6, 1, 2, 7, 8, 9], rgdemo.items⟩ ∧
    assignItems [[0], [1, 2], [3, 4, 5]] [2, 0] [[7, 8, 9], [6]] = [[6], [1, 2], [7, 8, 9]] ∧
    rgdemo.set (.list [-1, 3]) [9] = .error .indexError ∧
    (rgdemo.set (.list [1, 1]) [7, 8, 9, 6]) = .ok ⟨[0, 9, 6, 3, 4, 5], rgdemo.items⟩ := by
  decide

end Verif
