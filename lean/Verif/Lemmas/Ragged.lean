import Verif.Lemmas.Visual
import Verif.Lemmas.Values
import Verif.Spec.Ragged
/-
Lemmas on ragged arrays.
-/

namespace Verif

variable {α : Type}

/-- Lengths as integers. -/
def lens (ls : List (List α)) : List Int := ls.map (fun l => (l.length : Int))

theorem cumItems_getElem? (s : Int) (ls : List (List α)) (i : Nat) :
    (cumItems s (lens ls))[i]? = (ls[i]?).map (fun l =>
      (s + ((ls.take i).flatten.length : Nat), s + ((ls.take i).flatten.length : Nat) + l.length)) := by
  induction ls generalizing s i with
  | nil => simp [lens, cumItems]
  | cons l ls ih =>
    cases i with
    | zero => simp [lens, cumItems]
    | succ i =>
      have := ih (s + l.length) i
      simp only [lens, List.map_cons, cumItems, List.getElem?_cons_succ, List.take_succ_cons,
        List.flatten_cons, List.length_append] at *
      rw [this]
      congr 1
      funext x
      simp only [Prod.mk.injEq]
      constructor <;> push_cast <;> omega

theorem stands_iff (r : Ragged α) (ls : List (List α)) :
    RStands r ls ↔ r.data = ls.flatten ∧ r.items = cumItems 0 (lens ls) := by
  constructor
  · intro h
    refine ⟨h.data, ?_⟩
    apply List.ext_getElem?
    intro i
    rw [h.items, cumItems_getElem?]
    congr 1
    funext l
    simp
  · intro ⟨h1, h2⟩
    refine ⟨h1, fun i => ?_⟩
    rw [h2, cumItems_getElem?]
    congr 1
    funext l
    simp

theorem sum_lens (ls : List (List α)) : (lens ls).sum = (ls.flatten.length : Int) := by
  induction ls with
  | nil => rfl
  | cons l ls ih =>
    simp only [lens, List.map_cons, List.sum_cons, List.flatten_cons, List.length_append] at *
    rw [ih]; push_cast; rfl

theorem cumItems_drop (s : Int) (ns : List Int) (a : Nat) :
    (cumItems s ns).drop a = cumItems (s + (ns.take a).sum) (ns.drop a) := by
  induction ns generalizing s a with
  | nil => simp [cumItems]
  | cons n ns ih =>
    cases a with
    | zero => simp
    | succ a =>
      simp only [cumItems, List.drop_succ_cons, List.take_succ_cons, List.sum_cons, ih]
      rw [Int.add_assoc]

theorem cumItems_take (s : Int) (ns : List Int) (b : Nat) :
    (cumItems s ns).take b = cumItems s (ns.take b) := by
  induction ns generalizing s b with
  | nil => simp [cumItems]
  | cons n ns ih =>
    cases b with
    | zero => simp [cumItems]
    | succ b => simp only [cumItems, List.take_succ_cons, ih]

theorem cumItems_length (s : Int) (ns : List Int) : (cumItems s ns).length = ns.length := by
  induction ns generalizing s with
  | nil => rfl
  | cons n ns ih => simp [cumItems, ih]

theorem foldl_min_of_le {x : Int} {xs : List Int} (h : ∀ y ∈ xs, x ≤ y) : xs.foldl min x = x := by
  induction xs with
  | nil => rfl
  | cons y ys ih =>
    rw [List.foldl_cons, min_eq_left (h y (by simp))]
    exact ih (fun z hz => h z (List.mem_cons_of_mem _ hz))

theorem foldl_max_eq {x m : Int} {xs : List Int} (h : ∀ y ∈ x :: xs, y ≤ m) (hm : m ∈ x :: xs) :
    xs.foldl max x = m := by
  induction xs generalizing x with
  | nil => exact (List.mem_singleton.1 hm).symm
  | cons y ys ih =>
    rw [List.foldl_cons]
    apply ih
    · intro z hz
      rcases List.mem_cons.1 hz with rfl | hz
      · exact max_le (h x (by simp)) (h y (by simp))
      · exact h z (by simp [hz])
    · rcases List.mem_cons.1 hm with rfl | hm
      · rw [max_eq_left (h y (by simp))]; simp
      · rcases List.mem_cons.1 hm with rfl | hm
        · rw [max_eq_right (h x (by simp))]; simp
        · simp [hm]

theorem cumItems_bounds (s : Int) (ls : List (List α)) :
    ∀ y ∈ (cumItems s (lens ls)).flatMap (fun r => [r.1, r.2]),
      s ≤ y ∧ y ≤ s + (ls.flatten.length : Int) := by
  induction ls generalizing s with
  | nil => simp [lens, cumItems]
  | cons l ls ih =>
    intro y hy
    simp only [lens, List.map_cons, cumItems, List.flatMap_cons, List.cons_append, List.nil_append,
      List.mem_cons, List.flatten_cons, List.length_append] at hy ⊢
    rcases hy with rfl | rfl | hy
    · constructor <;> push_cast <;> omega
    · constructor <;> push_cast <;> omega
    · have := ih (s + l.length) y hy
      constructor <;> push_cast <;> omega

theorem cumItems_end_mem (s : Int) (ls : List (List α)) (hne : ls ≠ []) :
    s + (ls.flatten.length : Int) ∈ (cumItems s (lens ls)).flatMap (fun r => [r.1, r.2]) := by
  induction ls generalizing s with
  | nil => exact absurd rfl hne
  | cons l ls ih =>
    simp only [lens, List.map_cons, cumItems, List.flatMap_cons, List.cons_append, List.nil_append,
      List.mem_cons, List.flatten_cons, List.length_append]
    by_cases h : ls = []
    · subst h; right; left; simp
    · right; right
      have := ih (s + l.length) h
      simp only [lens] at this
      have he : s + ((l.length + ls.flatten.length : Nat) : Int) =
          s + l.length + (ls.flatten.length : Int) := by push_cast; omega
      rw [he]; exact this

theorem rowsRange_cumItems (s : Int) (ls : List (List α)) (hne : ls ≠ []) :
    rowsRange (cumItems s (lens ls)) = .ok (s, s + (ls.flatten.length : Int)) := by
  have hb := cumItems_bounds s ls
  have he := cumItems_end_mem s ls hne
  cases ls with
  | nil => exact absurd rfl hne
  | cons l ls =>
    unfold rowsRange
    simp only [lens, List.map_cons, cumItems, List.flatMap_cons, List.cons_append,
      List.nil_append] at hb he ⊢
    rw [foldl_min_of_le, foldl_max_eq (m := s + ((l :: ls).flatten.length : Int))]
    · exact fun y hy => (hb y hy).2
    · exact he
    · exact fun y hy => (hb y (List.mem_cons_of_mem _ hy)).1

theorem everyNth_one {β : Type} (xs : List β) : everyNth 1 xs = xs := by
  unfold everyNth
  simp only [Nat.mod_one, if_true]
  apply List.ext_getElem?
  intro i
  have h : ∀ n, n ≤ xs.length → (List.range n).filterMap (fun i => xs[i]?) = xs.take n := by
    intro n
    induction n with
    | zero => simp
    | succ n ih =>
      intro hn
      have hn' : n < xs.length := hn
      rw [List.range_succ, List.filterMap_append, ih (by omega), List.take_add_one]
      simp [List.getElem?_eq_getElem hn']
  rw [h _ (Nat.le_refl _), List.take_length]

/-- The slice of a list of the lengths of the parts. -/
theorem flatten_slice (ls : List (List α)) (a b : Nat) (hab : a ≤ b) :
    (ls.flatten.take (ls.take b).flatten.length).drop (ls.take a).flatten.length
      = ((ls.take b).drop a).flatten := by
  have h1 : ls.flatten.take (ls.take b).flatten.length = (ls.take b).flatten := by
    conv => lhs; rw [← List.take_append_drop b ls, List.flatten_append]
    rw [List.take_append_drop b ls, List.take_left]
  rw [h1]
  have h2 : (ls.take b).flatten = (ls.take a).flatten ++ ((ls.take b).drop a).flatten := by
    rw [← List.flatten_append]
    congr 1
    conv => lhs; rw [← List.take_append_drop a (ls.take b)]
    rw [List.take_take, Nat.min_eq_left hab]
  conv => lhs; rw [h2]
  rw [List.drop_left]

/-- The bounds a Python slice is brought to. -/
def clampTo (n : Nat) (i : Int) : Nat :=
  (if i < 0 then max 0 (i + (n : Int)) else min i (n : Int)).toNat

theorem clampTo_le (n : Nat) (i : Int) : clampTo n i ≤ n := by
  unfold clampTo
  split <;> omega

theorem pySlice_clamp {β : Type} (xs : List β) (a b : Int) :
    pySlice xs a b = (xs.take (clampTo xs.length b)).drop (clampTo xs.length a) := rfl

theorem clampTo_nat (n i : Nat) (h : i ≤ n) : clampTo n (i : Int) = i := by
  unfold clampTo
  rw [if_neg (by omega)]; omega

end Verif

namespace Verif

variable {α : Type}

theorem npGet_ok_iff {β : Type} {xs : List β} {i : Int} {x : β} :
    npGet xs i = .ok x ↔ ∃ j : Nat, xs[j]? = some x ∧
      (if i < 0 then i + (xs.length : Int) else i) = (j : Int) := by
  unfold npGet
  dsimp only
  generalize (if i < 0 then i + (xs.length : Int) else i) = j
  by_cases hj : j < 0
  · rw [if_pos hj]
    constructor
    · intro h; cases h
    · rintro ⟨k, _, hk⟩; omega
  · rw [if_neg hj]
    constructor
    · intro h
      refine ⟨j.toNat, ?_, by omega⟩
      cases hx : xs[j.toNat]? with
      | none => rw [hx] at h; cases h
      | some y => rw [hx] at h; cases h; rfl
    · rintro ⟨k, hk, he⟩
      have : j.toNat = k := by omega
      rw [this, hk]

theorem npGet_error {β γ : Type} {xs : List β} {ys : List γ} (hl : xs.length = ys.length) {i : Int}
    {e : Err} (h : npGet xs i = .error e) : npGet ys i = .error e := by
  unfold npGet at h ⊢
  rw [hl] at h
  dsimp only at h ⊢
  generalize (if i < 0 then i + (ys.length : Int) else i) = j at *
  by_cases hj : j < 0
  · rw [if_pos hj] at h ⊢; cases h; rfl
  · rw [if_neg hj] at h ⊢
    cases hx : xs[j.toNat]? with
    | some x => rw [hx] at h; cases h
    | none =>
      rw [hx] at h
      cases h
      have : ys[j.toNat]? = none := by
        rw [List.getElem?_eq_none_iff] at hx ⊢
        omega
      rw [this]

theorem stands_length {r : Ragged α} {ls : List (List α)} (h : RStands r ls) :
    r.items.length = ls.length := by
  rw [((stands_iff r ls).1 h).2, cumItems_length]; simp [lens]

/-- Rows of a non-empty slice. -/
theorem slice_rows {r : Ragged α} {ls : List (List α)} (h : RStands r ls) (a b : Int)
    (hne : pySlice ls a b ≠ []) :
    clampTo ls.length a ≤ clampTo ls.length b ∧
    rowsRange (pySlice r.items a b) = .ok
      (((ls.take (clampTo ls.length a)).flatten.length : Int),
       ((ls.take (clampTo ls.length b)).flatten.length : Int)) := by
  obtain ⟨hd, hi⟩ := (stands_iff r ls).1 h
  have hlen := stands_length h
  rw [pySlice_clamp] at hne ⊢
  rw [hlen, hi]
  generalize clampTo ls.length a = a' at *
  generalize clampTo ls.length b = b' at *
  have hab : a' ≤ b' := by
    by_contra hc
    apply hne
    rw [List.drop_eq_nil_of_le]
    simp; omega
  refine ⟨hab, ?_⟩
  have h1 : ((cumItems 0 (lens ls)).take b').drop a' =
      cumItems ((ls.take a').flatten.length : Int) (lens ((ls.take b').drop a')) := by
    rw [cumItems_take, cumItems_drop]
    congr 1
    · have : (lens ls).take b' = lens (ls.take b') := by simp [lens]
      rw [this]
      have : (lens (ls.take b')).take a' = lens (ls.take a') := by
        simp [lens, List.take_take, Nat.min_eq_left hab]
      rw [this, sum_lens]; simp
    · simp [lens]
  rw [h1, rowsRange_cumItems _ _ hne]
  congr 2
  have h2 : (ls.take b').flatten = (ls.take a').flatten ++ ((ls.take b').drop a').flatten := by
    rw [← List.flatten_append]
    congr 1
    conv => lhs; rw [← List.take_append_drop a' (ls.take b')]
    rw [List.take_take, Nat.min_eq_left hab]
  rw [h2, List.length_append]
  push_cast; rfl

theorem drop_flatten (ls : List (List α)) (b : Nat) :
    ls.flatten.drop (ls.take b).flatten.length = (ls.drop b).flatten := by
  conv => lhs; rw [← List.take_append_drop b ls, List.flatten_append]
  rw [List.take_append_drop b ls, List.drop_left]

theorem take_flatten (ls : List (List α)) (b : Nat) :
    ls.flatten.take (ls.take b).flatten.length = (ls.take b).flatten := by
  conv => lhs; rw [← List.take_append_drop b ls, List.flatten_append]
  rw [List.take_append_drop b ls, List.take_left]

theorem take_flatten_length_le (ls : List (List α)) (b : Nat) :
    (ls.take b).flatten.length ≤ ls.flatten.length := by
  conv => rhs; rw [← List.take_append_drop b ls, List.flatten_append, List.length_append]
  omega

/-- One item is a slice of the table. -/
theorem int_as_slice {β : Type} {xs : List β} {j : Nat} {x : β} (h : xs[j]? = some x) :
    pySlice xs (j : Int) ((j + 1 : Nat) : Int) = [x] := by
  rw [pySlice_nat]
  obtain ⟨hlt, rfl⟩ := List.getElem?_eq_some_iff.1 h
  have h1 : j + 1 - j = 1 := by omega
  rw [List.drop_take, h1, List.drop_eq_getElem_cons hlt]
  rfl

/-- The rows that an integer or slice key denotes, as a slice. -/
theorem set_slice_core {r : Ragged α} {ls : List (List α)} (h : RStands r ls) (a b : Nat)
    (hab : a ≤ b) (vs : List (List α))
    (hv : vs.map List.length = ((ls.take b).drop a).map List.length) :
    ∃ d, writeSlice r.data ((ls.take a).flatten.length : Int) ((ls.take b).flatten.length : Int)
        vs.flatten = .ok d ∧
      RStands { r with data := d } (ls.take a ++ vs ++ ls.drop b) := by
  obtain ⟨hd, hi⟩ := (stands_iff r ls).1 h
  have hla := take_flatten_length_le ls a
  have hlb := take_flatten_length_le ls b
  have hsplit : (ls.take b).flatten.length =
      (ls.take a).flatten.length + ((ls.take b).drop a).flatten.length := by
    rw [← List.length_append, ← List.flatten_append]
    congr 2
    conv => lhs; rw [← List.take_append_drop a (ls.take b)]
    rw [List.take_take, Nat.min_eq_left hab]
  have hvl : vs.flatten.length = ((ls.take b).drop a).flatten.length := by
    rw [List.length_flatten, List.length_flatten, hv]
  refine ⟨(ls.take a).flatten ++ vs.flatten ++ (ls.drop b).flatten, ?_, ?_⟩
  · unfold writeSlice
    have hc : ∀ n : Nat, n ≤ r.data.length → (if (n : Int) < 0 then max 0 ((n : Int) + r.data.length)
        else min (n : Int) r.data.length).toNat = n := by
      intro n hn; rw [if_neg (by omega)]; omega
    rw [hd] at *
    simp only [hc _ hla, hc _ hlb, bind, Except.bind]
    have hst : stretch ((ls.take b).flatten.length - (ls.take a).flatten.length) vs.flatten
        = .ok vs.flatten := by
      unfold stretch
      rw [if_pos (by omega)]
    rw [hst]
    simp only [pure, Except.pure]
    rw [Nat.max_eq_right (by omega), take_flatten, drop_flatten]
  · rw [stands_iff]
    refine ⟨by simp, ?_⟩
    show r.items = _
    rw [hi]
    congr 1
    unfold lens
    rw [List.map_append, List.map_append]
    have hv' : vs.map (fun l => (l.length : Int)) =
        ((ls.take b).drop a).map (fun l => (l.length : Int)) := by
      have := congrArg (List.map (fun n : Nat => (n : Int))) hv
      simpa [List.map_map, Function.comp_def] using this
    rw [hv', ← List.map_append, ← List.map_append]
    congr 1
    rw [List.drop_take]
    conv => lhs; rw [← List.take_append_drop b ls, ← List.take_append_drop a (ls.take b)]
    rw [List.take_take, Nat.min_eq_left hab, List.drop_take]

end Verif
