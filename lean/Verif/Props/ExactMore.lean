import Verif.Props.Ragged
import Verif.Props.Swizzle
import Verif.Props.Values
/-
C26, C35 and C38: what happens where these properties fail.
-/

namespace Verif

/-! ### C35 -/

section
variable {α : Type}

/-- The rows of a slice of the table are those of the slice of the list. -/
theorem slice_items {r : Ragged α} {ls : List (List α)} (h : RStands r ls) (a b : Int)
    (hne : pySlice ls a b ≠ []) :
    pySlice r.items a b = cumItems (((ls.take (clampTo ls.length a)).flatten.length : Nat) : Int)
      (lens (pySlice ls a b)) := by
  obtain ⟨hd, hi⟩ := (stands_iff r ls).1 h
  have hlen := stands_length h
  have hab := (slice_rows h a b hne).1
  rw [pySlice_clamp, pySlice_clamp, hlen, hi]
  generalize clampTo ls.length a = a' at *
  generalize clampTo ls.length b = b' at *
  rw [cumItems_take, cumItems_drop]
  congr 1
  · have : (lens ls).take b' = lens (ls.take b') := by simp [lens]
    rw [this]
    have : (lens (ls.take b')).take a' = lens (ls.take a') := by
      simp [lens, List.take_take, Nat.min_eq_left hab]
    rw [this, sum_lens]; simp
  · simp [lens]

/-- **C35.** An empty slice can neither be read nor written: `ValueError`. -/
theorem ragged_slice_empty {r : Ragged α} {ls : List (List α)} (h : RStands r ls) (a b : Int) (step : Nat)
    (he : pySlice ls a b = []) (v : List α) :
    r.get (.slice a b step) = .error .valueError ∧ r.set (.slice a b step) v = .error .valueError := by
  have hl := stands_length h
  have h0 : pySlice r.items a b = [] := by
    have h1 := congrArg List.length he
    rw [pySlice_clamp, List.length_drop, List.length_take, List.length_nil] at h1
    apply List.eq_nil_of_length_eq_zero
    rw [pySlice_clamp, List.length_drop, List.length_take, hl]
    exact h1
  simp only [Ragged.get, Ragged.set, keyRows, h0]
  exact ⟨rfl, rfl⟩

theorem everyNth_cons {β : Type} (step : Nat) (x : β) (xs : List β) :
    ∃ t, everyNth step (x :: xs) = x :: t := by
  unfold everyNth
  rw [List.length_cons, List.range_succ_eq_map, List.filterMap_cons]
  simp only [Nat.zero_mod, if_true, List.getElem?_cons_zero]
  exact ⟨_, rfl⟩

theorem mem_everyNth {β : Type} {step : Nat} {xs : List β} {x : β} :
    x ∈ everyNth step xs ↔ ∃ i, i % step = 0 ∧ xs[i]? = some x := by
  unfold everyNth
  rw [List.mem_filterMap]
  constructor
  · rintro ⟨i, _, h⟩
    split at h
    · exact ⟨i, by assumption, h⟩
    · cases h
  · rintro ⟨i, h1, h2⟩
    exact ⟨i, List.mem_range.2 (List.getElem?_eq_some_iff.1 h2).1, by rw [if_pos h1, h2]⟩

theorem take_flatten_mono (ls : List (List α)) {a b : Nat} (h : a ≤ b) :
    (ls.take a).flatten.length ≤ (ls.take b).flatten.length := by
  have := take_flatten_length_le (ls.take b) a
  rwa [List.take_take, Nat.min_eq_left h] at this

/-- The place of the last item of a slice with a step. -/
def lastMet (n step : Nat) : Nat := (n - 1) / step * step

theorem rowsRange_everyNth (s : Int) (L : List (List α)) (hne : L ≠ []) (step : Nat) (hs : 0 < step) :
    rowsRange (everyNth step (cumItems s (lens L))) =
      .ok (s, s + ((L.take (lastMet L.length step + 1)).flatten.length : Int)) := by
  have hlen : (cumItems s (lens L)).length = L.length := by rw [cumItems_length]; simp [lens]
  have hpos : 0 < L.length := List.length_pos_of_ne_nil hne
  have hlast : lastMet L.length step < L.length := by
    have := Nat.div_mul_le_self (L.length - 1) step
    unfold lastMet
    omega
  have hmod : lastMet L.length step % step = 0 := Nat.mul_mod_left _ _
  have hle : ∀ i, i % step = 0 → i < L.length → i ≤ lastMet L.length step := by
    intro i h1 h2
    obtain ⟨q, rfl⟩ := Nat.dvd_of_mod_eq_zero h1
    have h3 : q ≤ (L.length - 1) / step := (Nat.le_div_iff_mul_le hs).2 (by rw [Nat.mul_comm]; omega)
    have := Nat.mul_le_mul_right step h3
    unfold lastMet
    rw [Nat.mul_comm]
    exact this
  have hend : ∀ i, i < L.length → ∀ l, L[i]? = some l →
      (L.take i).flatten.length + l.length = (L.take (i + 1)).flatten.length := by
    intro i hi l hl
    obtain ⟨hlt, rfl⟩ := List.getElem?_eq_some_iff.1 hl
    rw [List.take_succ_eq_append_getElem hlt, List.flatten_append, List.length_append]
    simp
  have hbound : ∀ y ∈ (everyNth step (cumItems s (lens L))).flatMap (fun r => [r.1, r.2]),
      s ≤ y ∧ y ≤ s + ((L.take (lastMet L.length step + 1)).flatten.length : Int) := by
    intro y hy
    obtain ⟨row, hrow, hy⟩ := List.mem_flatMap.1 hy
    obtain ⟨i, hi, hget⟩ := mem_everyNth.1 hrow
    rw [cumItems_getElem?] at hget
    cases hl : L[i]? with
    | none => rw [hl] at hget; cases hget
    | some l =>
      rw [hl] at hget
      simp only [Option.map_some, Option.some.injEq] at hget
      have hlt := (List.getElem?_eq_some_iff.1 hl).1
      have h1 := hend i hlt l hl
      have h2 := take_flatten_mono L (Nat.add_le_add_right (hle i hi hlt) 1)
      subst hget
      simp only [List.mem_cons, List.not_mem_nil, or_false] at hy
      rcases hy with rfl | rfl <;> constructor <;> push_cast <;> omega
  have hmem : s + ((L.take (lastMet L.length step + 1)).flatten.length : Int) ∈
      (everyNth step (cumItems s (lens L))).flatMap (fun r => [r.1, r.2]) := by
    refine List.mem_flatMap.2 ⟨(s + ((L.take (lastMet L.length step)).flatten.length : Int),
        s + ((L.take (lastMet L.length step + 1)).flatten.length : Int)),
      mem_everyNth.2 ⟨lastMet L.length step, hmod, ?_⟩, ?_⟩
    · rw [cumItems_getElem?, List.getElem?_eq_getElem hlast]
      have := hend _ hlast _ (List.getElem?_eq_getElem hlast)
      simp only [Option.map_some, Option.some.injEq, Prod.mk.injEq, true_and]
      push_cast
      omega
    · simp
  have hfst : ∃ t, (everyNth step (cumItems s (lens L))).flatMap (fun r => [r.1, r.2]) = s :: t := by
    cases L with
    | nil => exact absurd rfl hne
    | cons l L =>
      simp only [lens, List.map_cons, cumItems]
      obtain ⟨t, ht⟩ := everyNth_cons step (s, s + (l.length : Int))
        (cumItems (s + (l.length : Int)) (L.map (fun l => (l.length : Int))))
      rw [ht, List.flatMap_cons]
      exact ⟨_, rfl⟩
  obtain ⟨t, ht⟩ := hfst
  unfold rowsRange
  rw [ht] at hbound hmem ⊢
  simp only
  rw [foldl_min_of_le (fun y hy => (hbound y (List.mem_cons_of_mem _ hy)).1),
    foldl_max_eq (fun y hy => (hbound y hy).2) hmem]

/-- **C35.** A slice with a step gives all the items from the first to the last that the step meets, those
in between included. -/
theorem ragged_get_step {r : Ragged α} {ls : List (List α)} (h : RStands r ls) (a b : Int) (step : Nat)
    (hs : 0 < step) (hne : pySlice ls a b ≠ []) :
    r.get (.slice a b step) =
      .ok ((pySlice ls a b).take (lastMet (pySlice ls a b).length step + 1)).flatten := by
  have hab := (slice_rows h a b hne).1
  simp only [Ragged.get, keyRows, bind, Except.bind, slice_items h a b hne,
    rowsRange_everyNth _ _ hne step hs, pure, Except.pure]
  obtain ⟨k, hk⟩ : ∃ k, k = lastMet (pySlice ls a b).length step + 1 := ⟨_, rfl⟩
  have hlast : k ≤ (pySlice ls a b).length := by
    have := Nat.div_mul_le_self ((pySlice ls a b).length - 1) step
    have := List.length_pos_of_ne_nil hne
    rw [hk]
    unfold lastMet
    omega
  rw [← hk]
  rw [pySlice_clamp ls a b] at hlast ⊢
  clear hk hne
  generalize clampTo ls.length a = a' at *
  generalize clampTo ls.length b = b' at *
  have htk : ((ls.take b').drop a').take k = (ls.take (a' + k)).drop a' := by
    rw [List.length_drop, List.length_take] at hlast
    rw [List.drop_take, List.drop_take, List.take_take]
    congr 1
    omega
  rw [htk]
  have hsum : (ls.take a').flatten.length + ((ls.take (a' + k)).drop a').flatten.length =
      (ls.take (a' + k)).flatten.length := by
    rw [← List.length_append, ← List.flatten_append]
    congr 2
    conv => rhs; rw [← List.take_append_drop a' (ls.take (a' + k))]
    rw [List.take_take, Nat.min_eq_left (by omega)]
  rw [← Nat.cast_add, hsum, pySlice_nat, h.data, flatten_slice _ _ _ (by omega)]

/-- **C35.** Writing an item, whatever the index and the value: an index out of range raises `IndexError`; a
value of the length of the item replaces it, a single number fills it, and any other raises `ValueError`. -/
theorem ragged_set_any {r : Ragged α} {ls : List (List α)} (h : RStands r ls) (i : Int) (v : List α) :
    match npGet ls i with
    | .error e => r.set (.int i) v = .error e
    | .ok l => ∃ j : Nat, ls[j]? = some l ∧ (if i < 0 then i + (ls.length : Int) else i) = j ∧
      (v.length = l.length → ∃ r', r.set (.int i) v = .ok r' ∧ RStands r' (ls.set j v)) ∧
      (∀ x, v = [x] → ∃ r', r.set (.int i) v = .ok r' ∧
        RStands r' (ls.set j (List.replicate l.length x))) ∧
      (v.length ≠ l.length → v.length ≠ 1 → r.set (.int i) v = .error .valueError) := by
  cases hg : npGet ls i with
  | error e =>
    simp only [Ragged.set, keyRows]
    rw [npGet_error (stands_length h).symm hg]
    rfl
  | ok l =>
    obtain ⟨j, hj, he⟩ := npGet_ok_iff.1 hg
    have hrow := h.items j
    rw [hj] at hrow
    have hi : npGet r.items i = npGet r.items (j : Int) := by
      rw [npGet_nat hrow]
      exact npGet_ok_iff.2 ⟨j, hrow, by rw [stands_length h]; exact he⟩
    have hkey : ∀ w, r.set (.int i) w = r.set (.int j) w := by
      intro w
      simp only [Ragged.set, keyRows, hi]
    have hform : ∀ w, r.set (.int j) w = (stretch l.length w).bind (fun w' =>
        .ok { r with data := r.data.take (ls.take j).flatten.length ++ w' ++
          r.data.drop (ls.take (j + 1)).flatten.length }) := by
      intro w
      obtain ⟨hlt, rfl⟩ := List.getElem?_eq_some_iff.1 hj
      have ht : (ls.take j).flatten.length + ls[j].length = (ls.take (j + 1)).flatten.length := by
        rw [List.take_succ_eq_append_getElem hlt, List.flatten_append, List.length_append]
        simp
      have hla := take_flatten_length_le ls j
      have hlb := take_flatten_length_le ls (j + 1)
      simp only [Ragged.set, keyRows, npGet_nat hrow, bind, Except.bind, pure, Except.pure, rowsRange,
        List.flatMap_cons, List.flatMap_nil, List.append_nil, List.foldl_cons, List.foldl_nil]
      rw [min_eq_left (by push_cast; omega), max_eq_right (by push_cast; omega), ht]
      unfold writeSlice
      have hc : ∀ n : Nat, n ≤ r.data.length → (if (n : Int) < 0 then max 0 ((n : Int) + r.data.length)
          else min (n : Int) r.data.length).toNat = n := by
        intro n hn; rw [if_neg (by omega)]; omega
      rw [← h.data] at hla hlb
      simp only [hc _ hla, hc _ hlb, bind, Except.bind, pure, Except.pure]
      rw [show (ls.take (j + 1)).flatten.length - (ls.take j).flatten.length = ls[j].length by omega,
        Nat.max_eq_right (by omega)]
      cases stretch ls[j].length w <;> rfl
    refine ⟨j, hj, he, ?_, ?_, ?_⟩
    · intro hv
      rw [hkey]
      exact ragged_set_int h j l v hj hv
    · rintro x rfl
      rw [hkey]
      obtain ⟨r', h1, h2⟩ := ragged_set_int h j l (List.replicate l.length x) hj (by simp)
      refine ⟨r', ?_, h2⟩
      rw [← h1, hform, hform]
      have e1 : stretch l.length (List.replicate l.length x) = .ok (List.replicate l.length x) := by
        unfold stretch
        rw [if_pos (by simp)]
      have e2 : stretch l.length [x] = .ok (List.replicate l.length x) := by
        unfold stretch
        split
        · rename_i h0
          rw [← h0]
          rfl
        · rfl
      rw [e1, e2]
    · intro h1 h2
      rw [hkey, hform]
      have : stretch l.length v = .error .valueError := by
        unfold stretch
        rw [if_neg h1]
        match v, h2 with
        | [], _ => rfl
        | [x], h2 => simp at h2
        | x :: y :: t, _ => rfl
      rw [this]
      rfl

example : rgdemo.get (.slice 0 3 2) = .ok ([[0], [1, 2], [3, 4, 5]].take (lastMet 3 2 + 1)).flatten :=
  ragged_get_step ((stands_iff rgdemo [[0], [1, 2], [3, 4, 5]]).2 ⟨by decide, by decide⟩) 0 3 2 (by decide)
    (by decide)

example : rgdemo.set (.int (-1)) [9] = .ok ⟨[0, 1, 2, 9, 9, 9], rgdemo.items⟩ ∧
    rgdemo.set (.int (-1)) [9, 8] = .error .valueError ∧ rgdemo.set (.int 4) [9] = .error .indexError := by
  decide

end

/-! ### C38 -/

/-- **C38.** A single vector refuses as many numbers as it has components, whatever name they are given to,
if there are two or more. -/
theorem swizzle_single_refused {k : Nat} {Z : Rows} {idx : List Nat} {xs : List ℚ} (h1 : Z.length = 1)
    (hk : 2 ≤ k) (hx : xs.length = k) (hi : idx ≠ []) :
    setSwizzle k Z idx (.vec xs) = .error .valueError := by
  match idx, hi with
  | j :: rest, _ =>
    match xs, hx with
    | x :: y :: t, hx =>
      have hs : SVal.size (.vec (x :: y :: t)) = k := by simpa [SVal.size] using hx
      have hq : SVal.squeeze (.vec (x :: y :: t)) = .vec (x :: y :: t) := rfl
      simp only [setSwizzle, hs, if_true, List.foldlM_cons, hq, assignCol]
      rw [if_neg (by simp only [List.length_cons]; omega)]
      rfl
    | [x], hx => simp at hx; omega
    | [], hx => simp at hx; omega

example : ∃ Z : Rows, Z.length = 1 ∧ setSwizzle 4 Z [0, 1, 2, 3] (.vec [1, 2, 3, 4]) = .error .valueError :=
  ⟨[[0, 0, 0, 0]], rfl, swizzle_single_refused rfl (by decide) rfl (by simp)⟩

/-! ### C26 -/

theorem findSub_some_of_infix {s t : List Char} (h : s <:+: t) : (findSub s t).isSome := by
  induction t with
  | nil => rw [List.infix_nil] at h; subst h; rfl
  | cons d t ih =>
    unfold findSub
    split
    · rfl
    · rename_i hn
      rcases List.infix_cons_iff.1 h with h' | h'
      · exact absurd (List.isPrefixOf_iff_prefix.2 h') hn
      · rw [Option.isSome_map]; exact ih h'

/-- In a notation without repeated letters, a piece is found where its first letter is. -/
theorem findSub_head {c : Char} {cs t : List Char} (hd : t.Nodup) (h : c :: cs <:+: t) :
    findSub (c :: cs) t = findSub [c] t := by
  induction t with
  | nil => simp at h
  | cons d t ih =>
    rw [List.nodup_cons] at hd
    rcases List.infix_cons_iff.1 h with h' | h'
    · have hcd := (List.cons_prefix_cons.1 h').1
      subst hcd
      unfold findSub
      rw [if_pos (List.isPrefixOf_iff_prefix.2 h'), if_pos (by simp)]
    · have hc : c ∈ t := h'.subset (List.mem_cons_self ..)
      have hne : c ≠ d := by rintro rfl; exact hd.1 hc
      unfold findSub
      rw [if_neg (by simp [hne]), if_neg (by simp [hne]), ih hd.2 h']

theorem infix_of_findSub {s t : List Char} (h : (findSub s t).isSome) : s <:+: t := by
  induction t with
  | nil =>
    unfold findSub at h
    split at h
    · rename_i h0; rw [h0]; exact List.infix_refl _
    · simp at h
  | cons d t ih =>
    unfold findSub at h
    split at h
    · rename_i h0; exact (List.isPrefixOf_iff_prefix.1 h0).isInfix
    · rw [Option.isSome_map] at h
      exact (ih h).trans (List.suffix_cons d t).isInfix

/-- The component of a key in two notations. -/
def keyIn (X R s : List Char) (v : TVal) : Except Err TVal :=
  match findSub s X with
  | some i => component i v
  | none => match findSub s R with
    | some i => component i v
    | none => .error .indexError

theorem accessVal_key (k : String) {v : TVal} (hv : ∀ x, v ≠ .num x) (hv' : ∀ cols, v ≠ .recs cols) :
    accessVal none (some k) v = keyIn "xyzw".toList "rgba".toList k.toList v := by
  unfold accessVal keyIn
  cases v with
  | num x => exact absurd rfl (hv x)
  | recs cols => exact absurd rfl (hv' cols)
  | vec xs =>
    generalize "xyzw".toList = X
    generalize "rgba".toList = R
    dsimp only
    cases findSub k.toList X with
    | some i => dsimp only; cases component i (.vec xs) <;> rfl
    | none =>
      dsimp only
      cases findSub k.toList R with
      | some i => dsimp only; cases component i (.vec xs) <;> rfl
      | none => rfl
  | mat n rows =>
    generalize "xyzw".toList = X
    generalize "rgba".toList = R
    dsimp only
    cases findSub k.toList X with
    | some i => dsimp only; cases component i (.mat n rows) <;> rfl
    | none =>
      dsimp only
      cases findSub k.toList R with
      | some i => dsimp only; cases component i (.mat n rows) <;> rfl
      | none => rfl

theorem findSub_none {s t : List Char} (h : ¬ s <:+: t) : findSub s t = none := by
  cases hf : findSub s t with
  | none => rfl
  | some i => exact absurd (infix_of_findSub (by rw [hf]; rfl)) h

theorem keyIn_head {X R : List Char} (hX : X.Nodup) (hR : R.Nodup) (hd : ∀ d ∈ R, d ∉ X) {c : Char}
    {cs : List Char} (h : c :: cs <:+: X ∨ c :: cs <:+: R) (v : TVal) :
    keyIn X R (c :: cs) v = keyIn X R [c] v := by
  unfold keyIn
  rcases h with h | h
  · have hs := findSub_some_of_infix h
    rw [findSub_head hX h] at hs ⊢
    cases hf : findSub [c] X with
    | some i => rfl
    | none => rw [hf] at hs; cases hs
  · have hc := hd c (h.subset (List.mem_cons_self ..))
    rw [findSub_none (s := c :: cs) (t := X) fun h' => hc (h'.subset (List.mem_cons_self ..)),
      findSub_none (s := [c]) (t := X) fun h' => hc (h'.subset (List.mem_cons_self ..)), findSub_head hR h]

/-- **C26.** A key of an accessor that follows the order of a notation, like `yz`, gives the component of its
first letter only; any other key raises `IndexError`. -/
theorem accessor_key (key : String) (c : Char) (cs : List Char) (hk : key.toList = c :: cs) (v : TVal)
    (hv : ∀ x, v ≠ .num x) (hv' : ∀ cols, v ≠ .recs cols) :
    ((c :: cs <:+: "xyzw".toList ∨ c :: cs <:+: "rgba".toList) →
      accessVal none (some key) v = accessVal none (some (String.ofList [c])) v) ∧
    (¬ (c :: cs <:+: "xyzw".toList) → ¬ (c :: cs <:+: "rgba".toList) →
      accessVal none (some key) v = .error .indexError) := by
  have hc : (String.ofList [c]).toList = [c] := String.toList_ofList
  rw [accessVal_key _ hv hv', accessVal_key _ hv hv', hk, hc]
  refine ⟨fun h => keyIn_head (by decide) (by decide) (by decide) h v, fun h1 h2 => ?_⟩
  unfold keyIn
  rw [findSub_none h1, findSub_none h2]

example : accessVal none (some "yz") (.vec [5, 6, 7]) = accessVal none (some "y") (.vec [5, 6, 7]) ∧
    accessVal none (some "zy") (.vec [5, 6, 7]) = .error .indexError :=
  ⟨(accessor_key "yz" 'y' ['z'] (by decide) _ (by simp) (by simp)).1 (.inl (by decide)),
    (accessor_key "zy" 'z' ['y'] (by decide) _ (by simp) (by simp)).2 (by decide) (by decide)⟩

end Verif
