import Verif.Spec.Given
import Verif.Props.ExactColour
/-
C90: what is drawn and the form in which the attributes of points are given.
-/

namespace Verif

theorem evalGiven_number (x : ℚ) : evalGiven (.number x) = .ok (.number x) := rfl

theorem evalGiven_tuple (v : Nested) : evalGiven (.tuple v) = .ok (.array v) := rfl

theorem evalGiven_array (v : Nested) : evalGiven (.array v) = .ok (.array v) := rfl

/-! ### Positions -/

theorem inThrees_flatten : ∀ xs : List ℚ, xs.length % 3 = 0 →
    (inThrees xs).flatten = xs ∧ ∀ p ∈ inThrees xs, p.length = 3
  | [], _ => by simp [inThrees]
  | [a], h => by simp at h
  | [a, b], h => by simp at h
  | a :: b :: c :: r, h => by
    have := inThrees_flatten r (by simp only [List.length_cons] at h; omega)
    simp [inThrees, this.1]
    exact this.2

theorem inThrees_of_flatten (ps : List (List ℚ)) (h : ∀ p ∈ ps, p.length = 3) :
    inThrees ps.flatten = ps := by
  induction ps with
  | nil => rfl
  | cons p ps ih =>
    have hp := h p (by simp)
    match p, hp with
    | [a, b, c], _ =>
      simp only [List.flatten_cons, List.cons_append, List.nil_append, inThrees]
      rw [ih (fun q hq => h q (by simp [hq]))]

theorem flatten_threes (ps : List (List ℚ)) (h : ∀ p ∈ ps, p.length = 3) :
    ps.flatten.length = 3 * ps.length := by
  induction ps with
  | nil => rfl
  | cons p ps ih =>
    have hp := h p (by simp)
    simp only [List.flatten_cons, List.length_append, List.length_cons,
      ih (fun q hq => h q (by simp [hq])), hp]
    omega

/-- What the reshape makes of an array. -/
theorem reshapeThree_array_iff (v : Nested) (ps : List (List ℚ)) :
    reshapeThree (.array v) = .ok ps ↔ v.ravel = ps.flatten ∧ ∀ p ∈ ps, p.length = 3 := by
  simp only [reshapeThree]
  constructor
  · intro h
    split at h
    · next hm =>
      injection h with h
      subst h
      have := inThrees_flatten v.ravel hm
      exact ⟨this.1.symm, this.2⟩
    · cases h
  · rintro ⟨h1, h2⟩
    rw [h1, if_pos (by rw [flatten_threes ps h2]; omega), inThrees_of_flatten ps h2]

/-- Points drawn black, without edge, of one size, at positions given in some form. -/
def plain (order : List (List ℚ) → List Nat) (positions : Given) : Except Err (List Dot) :=
  drawPoints order positions (.number 1) (.tuple (.numbers [0, 0, 0, 1])) (.tuple (.numbers [0, 0, 0, 1]))
    (.number 0)

theorem plain_ok_iff (order : List (List ℚ) → List Nat) (g : Given) :
    (∃ dots, plain order g = .ok dots) ↔
      ∃ made value ps, givenLen g = .ok made ∧ evalGiven g = .ok value ∧
        reshapeThree value = .ok ps ∧ (ps.length = made ∨ ps.length = 1) := by
  unfold plain drawPoints
  constructor
  · rintro ⟨dots, h⟩
    cases h1 : givenLen g with
    | error e => rw [h1] at h; cases h
    | ok made =>
      cases h2 : evalGiven g with
      | error e => rw [h1, h2] at h; cases h
      | ok value =>
        cases h3 : reshapeThree value with
        | error e =>
          simp only [h1, h2, bind, Except.bind, h3] at h
          cases h
        | ok ps =>
          refine ⟨made, value, ps, rfl, rfl, h3, ?_⟩
          by_cases hc : ps.length = made ∨ ps.length = 1
          · exact hc
          · simp only [h1, h2, bind, Except.bind, h3, fillScreen, if_neg hc] at h
            cases h
  · rintro ⟨made, value, ps, h1, h2, h3, h4⟩
    simp only [h1, h2, bind, Except.bind, h3, fillScreen, if_pos h4, evalGiven_number,
      evalGiven_tuple, settleSizes, pure, Except.pure]
    exact ⟨_, rfl⟩

/-- **C90, exactly for positions.** Points are drawn just when the positions are an array (or a tuple) with
a row of three numbers for each point, or three numbers for one point. -/
theorem positions_drawn_iff (order : List (List ℚ) → List Nat) (g : Given) :
    (∃ dots, plain order g = .ok dots) ↔ ∃ n ps, MakesPoints n g ps := by
  rw [plain_ok_iff]
  constructor
  · rintro ⟨made, value, ps, h1, h2, h3, h4⟩
    have key : ∀ v, (g = .array v ∨ g = .tuple v) → ∃ n ps, MakesPoints n g ps := by
      intro v hv
      have hl : made = v.len := by
        rcases hv with rfl | rfl <;> (injection h1 with h1; exact h1.symm)
      have he : value = .array v := by
        rcases hv with rfl | rfl <;> (injection h2 with h2; exact h2.symm)
      subst he
      obtain ⟨h5, h6⟩ := (reshapeThree_array_iff v ps).1 h3
      refine ⟨ps.length, ps, v, hv, h5, h6, rfl, ?_⟩
      rcases h4 with h4 | h4
      · left; rw [← hl, h4]
      · right; exact h4
    cases g with
    | array v => exact key v (.inl rfl)
    | tuple v => exact key v (.inr rfl)
    | list v =>
      injection h2 with h2
      subst h2
      cases h3
    | scalar x => cases h1
    | transform r => cases h1
    | number x => cases h1
    | none => cases h1
  · rintro ⟨n, ps, v, hv, h1, h2, h3, h4⟩
    have hr := (reshapeThree_array_iff v ps).2 ⟨h1, h2⟩
    have hn : ps.length = v.len ∨ ps.length = 1 := by
      rcases h4 with h4 | h4
      · left; omega
      · right; omega
    rcases hv with rfl | rfl
    · exact ⟨v.len, .array v, ps, rfl, rfl, hr, hn⟩
    · exact ⟨v.len, .array v, ps, rfl, rfl, hr, hn⟩

/-- Positions given as a list raise AttributeError; given as a transform, a number or None they raise
TypeError; and rows of two numbers raise ValueError, whatever the rest. -/
theorem positions_form_refused (order : List (List ℚ) → List Nat) (sizes fill line width : Given) :
    (∀ v, drawPoints order (.list v) sizes fill line width = .error .attributeError) ∧
    (∀ r, drawPoints order (.transform r) sizes fill line width = .error .typeError) ∧
    (∀ x, drawPoints order (.number x) sizes fill line width = .error .typeError) ∧
    drawPoints order .none sizes fill line width = .error .typeError ∧
    (∀ rows, rows ≠ [] → (∀ p ∈ rows, p.length = 2) →
      drawPoints order (.array (.rows rows)) sizes fill line width = .error .valueError) := by
  refine ⟨fun v => rfl, fun r => rfl, fun x => rfl, rfl, ?_⟩
  intro rows hne h2
  have hlen : rows.flatten.length = 2 * rows.length := by
    clear hne
    induction rows with
    | nil => rfl
    | cons p rows ih =>
      simp only [List.flatten_cons, List.length_append, List.length_cons,
        ih (fun q hq => h2 q (by simp [hq])), h2 p (by simp)]
      omega
  have hpos : 0 < rows.length := List.length_pos_iff.2 hne
  unfold drawPoints
  simp only [givenLen, evalGiven_array, bind, Except.bind, reshapeThree, Nested.len]
  by_cases hm : (Nested.rows rows).ravel.length % 3 = 0
  · rw [if_pos hm]
    have h3 := inThrees_flatten rows.flatten hm
    have h4 := flatten_threes _ h3.2
    rw [h3.1, hlen] at h4
    simp only [fillScreen]
    rw [if_neg (by simp only [Nested.ravel]; omega)]
  · rw [if_neg hm]

/-! ### Sizes -/

/-- **C90, exactly for sizes.** `n` points are drawn just when the sizes are one number, or an array (or a
tuple, or what a transform gives) of `n` numbers: one number in an array or from a transform, or a list, are
right for one point only. -/
theorem sizes_drawn_iff (order : List (List ℚ) → List Nat) (rows : List (List ℚ)) (hne : rows ≠ [])
    (h3 : ∀ p ∈ rows, p.length = 3) (sizes : Given) :
    (∃ dots, drawPoints order (.array (.rows rows)) sizes (.tuple (.numbers [0, 0, 0, 1]))
      (.tuple (.numbers [0, 0, 0, 1])) (.number 0) = .ok dots) ↔ SizesFit rows.length sizes := by
  have hr : reshapeThree (.array (.rows rows)) = .ok rows :=
    (reshapeThree_array_iff _ _).2 ⟨rfl, h3⟩
  have hred : ∀ s, drawPoints order (.array (.rows rows)) s (.tuple (.numbers [0, 0, 0, 1]))
      (.tuple (.numbers [0, 0, 0, 1])) (.number 0) =
      (evalGiven s >>= fun v => settleSizes rows.length (order rows) v >>= fun sizes =>
        .ok ((List.range rows.length).map (fun k =>
          ⟨(permute (order rows) rows)[k]?,
            (handOver rows.length (order rows) (.array (.numbers [0, 0, 0, 1]))).map (colourAt · k),
            (handOver rows.length (order rows) (.array (.numbers [0, 0, 0, 1]))).map (colourAt · k),
            (handOver rows.length (order rows) (.number 0)).map (widthAt · k), sizes[k]?⟩))) := by
    intro s
    unfold drawPoints
    simp only [givenLen, evalGiven_array, evalGiven_tuple, evalGiven_number, bind, Except.bind, hr,
      Nested.len, fillScreen, true_or, if_true]
    rfl
  have hiff : (∃ dots, drawPoints order (.array (.rows rows)) sizes (.tuple (.numbers [0, 0, 0, 1]))
      (.tuple (.numbers [0, 0, 0, 1])) (.number 0) = .ok dots) ↔
      ∃ v ss, evalGiven sizes = .ok v ∧ settleSizes rows.length (order rows) v = .ok ss := by
    rw [hred]
    constructor
    · rintro ⟨dots, h⟩
      cases hv : evalGiven sizes with
      | error e => rw [hv] at h; cases h
      | ok v =>
        cases hs : settleSizes rows.length (order rows) v with
        | error e => simp only [hv, bind, Except.bind, hs] at h; cases h
        | ok ss => exact ⟨v, ss, rfl, hs⟩
    · rintro ⟨v, ss, hv, hs⟩
      simp only [hv, bind, Except.bind, hs]
      exact ⟨_, rfl⟩
  rw [hiff]
  clear hiff hred hr h3
  have hpos : 0 < rows.length := List.length_pos_iff.2 hne
  generalize rows.length = n at *
  generalize order rows = idx at *
  have hnum : ∀ xs, (∃ ss, settleSizes n idx (.array (.numbers xs)) = .ok ss) ↔ xs.length = n := by
    intro xs
    simp only [settleSizes]
    split
    · next h => exact ⟨fun _ => h, fun _ => ⟨_, rfl⟩⟩
    · next h => exact ⟨fun ⟨_, h'⟩ => (by cases h'), fun h' => absurd h' h⟩
  have hrow : ∀ xs, (∃ ss, settleSizes n idx (.array (.rows xs)) = .ok ss) ↔ n = 1 ∧ ∃ x, xs = [[x]] := by
    intro xs
    simp only [settleSizes]
    split
    · next x => exact ⟨fun _ => ⟨rfl, x, rfl⟩, fun _ => ⟨_, rfl⟩⟩
    · next h =>
      constructor
      · rintro ⟨_, h'⟩; cases h'
      · rintro ⟨rfl, x, rfl⟩; exact absurd rfl (h x rfl)
  have harr : ∀ v, (∃ ss, settleSizes n idx (.array v) = .ok ss) ↔
      (∃ xs, v = .numbers xs ∧ xs.length = n) ∨ n = 1 ∧ ∃ x, v = .rows [[x]] := by
    intro v
    cases v with
    | numbers xs => rw [hnum]; simp
    | rows xs => rw [hrow]; simp
  cases sizes with
  | array v =>
    simp only [evalGiven, Except.ok.injEq, exists_eq_left', exists_and_left, SizesFit]
    exact harr v
  | tuple v =>
    simp only [evalGiven, Except.ok.injEq, exists_eq_left', exists_and_left, SizesFit]
    exact harr v
  | scalar x =>
    simp only [evalGiven, Except.ok.injEq, exists_eq_left', exists_and_left, SizesFit]
    rw [hnum]
    simp [eq_comm]
  | transform r =>
    simp only [SizesFit]
    cases r with
    | error e => simp [evalGiven, Except.map]
    | ok a =>
      simp only [evalGiven, Except.map, Except.ok.injEq, exists_eq_left', exists_and_left]
      rw [harr]
      cases a with
      | items xs => simp [atleastOne, and_comm]
      | flat xs => simp [atleastOne]
      | other x => simp [atleastOne, eq_comm]
  | list v =>
    simp only [evalGiven, Except.ok.injEq, exists_eq_left', exists_and_left, SizesFit]
    constructor
    · rintro ⟨ss, h⟩
      simp only [settleSizes] at h
      split at h
      · next x => exact ⟨rfl, x, .inl rfl⟩
      · next x => exact ⟨rfl, x, .inr rfl⟩
      · cases h
    · rintro ⟨rfl, x, rfl | rfl⟩
      · exact ⟨[x], rfl⟩
      · exact ⟨[x], rfl⟩
  | number x =>
    simp only [evalGiven, Except.ok.injEq, exists_eq_left', exists_and_left, SizesFit, settleSizes]
    exact ⟨fun _ => trivial, fun _ => ⟨_, rfl⟩⟩
  | none =>
    simp only [evalGiven, Except.ok.injEq, exists_eq_left', exists_and_left, SizesFit, settleSizes]
    exact ⟨fun ⟨_, h⟩ => (by cases h), False.elim⟩

/-! ### Colours and widths -/

theorem evalGiven_asArray {g : Given} (h : ¬ g.isList) : evalGiven g = evalGiven g.asArray := by
  cases g with
  | list v => exact absurd trivial h
  | transform r => cases r <;> rfl
  | _ => rfl

/-- **C90, as far as it holds.** As long as none of them is a list, the sizes, the colours and the widths
are drawn as the same values given as an array, whether they come in an array, a buffer, a tuple or from a
transform. (Missing: lists, see `attributes_as_lists_fails`.) -/
theorem form_irrelevant_partial (order : List (List ℚ) → List Nat) (positions : Given)
    {sizes fill line width : Given} (h1 : ¬ sizes.isList) (h2 : ¬ fill.isList) (h3 : ¬ line.isList)
    (h4 : ¬ width.isList) :
    drawPoints order positions sizes fill line width =
      drawPoints order positions sizes.asArray fill.asArray line.asArray width.asArray := by
  unfold drawPoints
  rw [evalGiven_asArray h1, evalGiven_asArray h2, evalGiven_asArray h3, evalGiven_asArray h4]

/-- `n` points of one size with edges of one colour, filled with colours given in some form. -/
def filled (order : List (List ℚ) → List Nat) (rows : List (List ℚ)) (fill : Given) :
    Except Err (List Dot) :=
  drawPoints order (.array (.rows rows)) (.number 1) fill (.number 0) (.number 0)

theorem filled_ok (order : List (List ℚ) → List Nat) {rows : List (List ℚ)}
    (h3 : ∀ p ∈ rows, p.length = 3) {fill : Given} {v : Evald} (hv : evalGiven fill = .ok v) :
    filled order rows fill = .ok ((List.range rows.length).map (fun k =>
      ⟨(permute (order rows) rows)[k]?, (handOver rows.length (order rows) v).map (colourAt · k),
        some (some [0]), some (some 0), if k < rows.length then some 1 else none⟩)) := by
  have hr : reshapeThree (.array (.rows rows)) = .ok rows :=
    (reshapeThree_array_iff _ _).2 ⟨rfl, h3⟩
  unfold filled drawPoints
  simp only [givenLen, evalGiven_array, evalGiven_number, bind, Except.bind, hr, Nested.len, fillScreen,
    true_or, if_true, hv, settleSizes, handOver, Option.map_some, colourAt, widthAt, List.getElem?_replicate]
  rfl

/-- Colours given as a list, one for each point, follow the order of drawing: the farthest point gets the
first colour, whichever point it is. -/
theorem list_colours_by_rank (order : List (List ℚ) → List Nat) (rows : List (List ℚ))
    (h3 : ∀ p ∈ rows, p.length = 3) (cs : List (List ℚ)) (hl : cs.length = rows.length) :
    ∃ dots, filled order rows (.list (.rows cs)) = .ok dots ∧
      dots.map (·.fill) = cs.map (fun c => some (some c)) := by
  refine ⟨_, filled_ok order h3 rfl, ?_⟩
  rw [List.map_map]
  apply List.ext_getElem?
  intro k
  rw [List.getElem?_map, List.getElem?_map]
  by_cases hk : k < rows.length
  · rw [List.getElem?_range hk, List.getElem?_eq_getElem (by omega)]
    simp [handOver, Nested.attr, colourAt, hl, Nat.mod_eq_of_lt hk, hk]
  · rw [List.getElem?_eq_none (by simpa using hk), List.getElem?_eq_none (by omega)]
    rfl

theorem permute_uniform {α : Type} {idx : List Nat} {xs : List α} (h : ∀ i ∈ idx, i < xs.length)
    (hl : idx.length = xs.length) (hu : ∀ x ∈ xs, ∀ y ∈ xs, x = y) : permute idx xs = xs := by
  apply List.ext_getElem (by rw [permute_length h, hl])
  intro m h1 h2
  refine hu _ ?_ _ (List.getElem_mem _)
  have := List.getElem_mem h1
  unfold permute at this
  obtain ⟨b, _, hb⟩ := List.mem_filterMap.1 this
  exact List.mem_of_getElem? hb

/-- An order that exchanges two of `n` places, and leaves other numbers of points in order. -/
def swapOrder (n i j : Nat) : List (List ℚ) → List Nat := fun ps =>
  if ps.length = n then (List.range n).map (Equiv.swap i j) else List.range ps.length

theorem swapOrder_sorts {n i j : Nat} (hi : i < n) (hj : j < n) : SortsByDepth (swapOrder n i j) := by
  intro ps
  unfold swapOrder
  by_cases h : ps.length = n
  · rw [if_pos h]
    exact ⟨_, by simp [h], argsort_swap n i j hi hj⟩
  · rw [if_neg h]
    refine ⟨(List.range ps.length).map (fun k : Nat => (k : ℚ)), by simp, by simp, ?_⟩
    have : permute (List.range ps.length) ((List.range ps.length).map (fun k : Nat => (k : ℚ))) =
        (List.range ps.length).map (fun k : Nat => (k : ℚ)) := by
      apply List.ext_getElem?
      intro k
      rw [permute_getElem? (by simp)]
      by_cases hk : k < ps.length
      · simp [List.getElem?_range hk]
      · rw [List.getElem?_eq_none (by simpa using hk), List.getElem?_eq_none (by simpa using hk)]
        rfl
    rw [this, List.pairwise_map]
    refine List.pairwise_lt_range.imp ?_
    intro a b hab
    exact_mod_cast hab.le

theorem swap_permute {α : Type} {n i j : Nat} (hi : i < n) (hj : j < n) {xs : List α}
    (hl : xs.length = n) : (permute ((List.range n).map (Equiv.swap i j)) xs)[i]? = xs[j]? := by
  rw [permute_getElem? (by
    intro x hx
    obtain ⟨k, hk, rfl⟩ := List.mem_map.1 hx
    rw [Equiv.swap_apply_def]
    have := List.mem_range.1 hk
    split
    · omega
    · split <;> omega)]
  rw [List.getElem?_map, List.getElem?_range hi, Option.map_some, Option.bind_some,
    Equiv.swap_apply_left]

theorem evalGiven_holds {g : Given} {v : Nested} (h : g.holds v) : evalGiven g = .ok (.array v) := by
  rcases h with rfl | rfl | rfl
  · rfl
  · rfl
  · cases v <;> rfl

/-- **C90 and C29.** With one colour for the inside and one for the edge, one width and one size for each
point, given in any form that is not a list, each point is drawn with its own, whatever the depths. -/
theorem points_drawn_with_their_own {order : List (List ℚ) → List Nat} (ho : SortsByDepth order)
    {rows fills lines : List (List ℚ)} {widths sizes : List ℚ} (h3 : ∀ p ∈ rows, p.length = 3)
    (hf : fills.length = rows.length) (hl : lines.length = rows.length)
    (hw : widths.length = rows.length) (hs : sizes.length = rows.length) {gf gl gw gs : Given}
    (hgf : gf.holds (.rows fills)) (hgl : gl.holds (.rows lines)) (hgw : gw.holds (.numbers widths))
    (hgs : gs.holds (.numbers sizes)) :
    ∃ dots, drawPoints order (.array (.rows rows)) gs gf gl gw = .ok dots ∧
      dots.Perm ((List.range rows.length).map (fun i =>
        ⟨rows[i]?, some fills[i]?, some lines[i]?, some widths[i]?, sizes[i]?⟩)) := by
  have hr : reshapeThree (.array (.rows rows)) = .ok rows :=
    (reshapeThree_array_iff _ _).2 ⟨rfl, h3⟩
  obtain ⟨keys, hk, hp, -⟩ := ho rows
  rw [hk] at hp
  have hlt := perm_range_lt hp
  have hlen : (order rows).length = rows.length := by simpa using hp.length_eq
  unfold drawPoints
  simp only [givenLen, evalGiven_array, bind, Except.bind, hr, Nested.len, fillScreen, true_or, if_true,
    evalGiven_holds hgf, evalGiven_holds hgl, evalGiven_holds hgw, evalGiven_holds hgs, settleSizes,
    if_pos hs, pure, Except.pure]
  refine ⟨_, rfl, ?_⟩
  refine List.Perm.trans (List.Perm.of_eq ?_) (hp.map (fun i =>
    (⟨rows[i]?, some fills[i]?, some lines[i]?, some widths[i]?, sizes[i]?⟩ : Dot)))
  apply List.ext_getElem?
  intro k
  rw [List.getElem?_map, List.getElem?_map]
  by_cases hkn : k < rows.length
  · obtain ⟨i, hi⟩ : ∃ i, (order rows)[k]? = some i := ⟨_, List.getElem?_eq_getElem (by omega)⟩
    rw [List.getElem?_range hkn, hi]
    simp only [Option.map_some, handOver, Nested.attr, sortAttr, if_pos hf, if_pos hl, if_pos hw, colourAt,
      widthAt]
    rw [permute_length (by rw [hf]; exact hlt), permute_length (by rw [hl]; exact hlt),
      permute_length (by rw [hw]; exact hlt), hlen, Nat.mod_eq_of_lt hkn,
      permute_getElem? (by exact hlt), permute_getElem? (by rw [hf]; exact hlt),
      permute_getElem? (by rw [hl]; exact hlt), permute_getElem? (by rw [hw]; exact hlt),
      permute_getElem? (by rw [hs]; exact hlt), hi]
    rfl
  · rw [List.getElem?_eq_none (by simpa using hkn), List.getElem?_eq_none (by omega)]
    rfl

/-- Two points, with the nearer first. -/
example : ∃ dots, drawPoints (swapOrder 2 0 1) (.array (.rows [[0, 0, 0], [1, 0, 1]]))
    (.transform (.ok (.flat [3, 4]))) (.tuple (.rows [[1, 0, 0, 1], [0, 0, 1, 1]]))
    (.array (.rows [[0, 0, 0, 1], [0, 1, 0, 1]])) (.array (.numbers [1, 2])) = .ok dots ∧
    dots = [⟨some [1, 0, 1], some (some [0, 0, 1, 1]), some (some [0, 1, 0, 1]), some (some 2), some 4⟩,
      ⟨some [0, 0, 0], some (some [1, 0, 0, 1]), some (some [0, 0, 0, 1]), some (some 1), some 3⟩] :=
  ⟨_, rfl, by decide +kernel⟩

/-- **C90, exactly for colours.** A list of colours is drawn as the same colours in an array, whatever the
depths, just when they are not as many as the points, or are all the same; and so is one colour in a list
and in a tuple or an array: its components are not as many as the points, or are all the same. -/
theorem colours_list_same_iff (rows : List (List ℚ)) (h3 : ∀ p ∈ rows, p.length = 3) (v : Nested) :
    (∀ order, SortsByDepth order →
      filled order rows (.list v) = filled order rows (.array v)) ↔
      v.len ≠ rows.length ∨ v.uniform := by
  constructor
  · intro h
    by_cases hl : v.len = rows.length
    · right
      have key : ∀ i j, i < rows.length → j < rows.length →
          colourAt v.attr i =
            colourAt (sortAttr rows.length ((List.range rows.length).map (Equiv.swap i j)) v.attr) i := by
        intro i j hi hj
        have := h _ (swapOrder_sorts hi hj)
        rw [filled_ok _ h3 (v := .list v) rfl, filled_ok _ h3 (v := .array v) rfl] at this
        injection this with this
        have := congrArg (fun l => (l[i]?).map Dot.fill) this
        simpa [List.getElem?_map, List.getElem?_range hi, handOver, swapOrder] using this
      cases v with
      | numbers xs =>
        simp only [Nested.len] at hl
        intro x hx y hy
        obtain ⟨i, hi, rfl⟩ := List.mem_iff_getElem.1 hx
        obtain ⟨j, hj, rfl⟩ := List.mem_iff_getElem.1 hy
        have := key i j (by omega) (by omega)
        simp only [Nested.attr, sortAttr, if_pos hl, colourAt, Option.some.injEq] at this
        have h2 := congrArg (fun l => l[i]?) this
        rw [swap_permute (by omega) (by omega) hl] at h2
        rw [List.getElem?_eq_getElem hj, List.getElem?_eq_getElem hi] at h2
        exact Option.some.inj h2
      | rows xs =>
        simp only [Nested.len] at hl
        intro x hx y hy
        obtain ⟨i, hi, rfl⟩ := List.mem_iff_getElem.1 hx
        obtain ⟨j, hj, rfl⟩ := List.mem_iff_getElem.1 hy
        have := key i j (by omega) (by omega)
        have hlen : (permute ((List.range rows.length).map (Equiv.swap i j)) xs).length = rows.length := by
          rw [permute_length (by
            intro x hx
            obtain ⟨k, hk, rfl⟩ := List.mem_map.1 hx
            rw [Equiv.swap_apply_def]
            have := List.mem_range.1 hk
            split
            · omega
            · split <;> omega)]
          simp
        simp only [Nested.attr, sortAttr, if_pos hl, colourAt, hlen] at this
        rw [hl, Nat.mod_eq_of_lt (by omega), swap_permute (by omega) (by omega) hl,
          List.getElem?_eq_getElem hj, List.getElem?_eq_getElem hi] at this
        exact Option.some.inj this
    · exact .inl hl
  · intro h order hs
    rw [filled_ok _ h3 (v := .list v) rfl, filled_ok _ h3 (v := .array v) rfl]
    obtain ⟨keys, hk, hp, -⟩ := hs rows
    rw [hk] at hp
    have hlt := perm_range_lt hp
    have hlen : (order rows).length = rows.length := by simpa using hp.length_eq
    have : sortAttr rows.length (order rows) v.attr = v.attr := by
      cases v with
      | numbers xs =>
        simp only [Nested.attr, sortAttr]
        split
        · next hl =>
          rcases h with h | h
          · exact absurd hl h
          · rw [permute_uniform (by rw [hl]; exact hlt) (by omega) h]
        · rfl
      | rows xs =>
        simp only [Nested.attr, sortAttr]
        split
        · next hl =>
          rcases h with h | h
          · exact absurd hl h
          · rw [permute_uniform (by rw [hl]; exact hlt) (by omega) h]
        · rfl
    simp only [handOver, this]

/-- **C90 fails**: the same two colours given as a list and as an array are drawn on opposite points; one
colour given as a list and as a tuple differs for four points; the same two sizes given as an array are
drawn and as a list raise, and one size given as an array raises for two points; positions given as a list
raise. -/
theorem attributes_as_lists_fails :
    ∃ order, SortsByDepth order ∧
      filled order [[0, 0, 0], [1, 0, 1]] (.list (.rows [[1, 0, 0, 1], [0, 0, 1, 1]])) ≠
        filled order [[0, 0, 0], [1, 0, 1]] (.array (.rows [[1, 0, 0, 1], [0, 0, 1, 1]])) ∧
      (∃ order', SortsByDepth order' ∧
        filled order' [[0, 0, 0], [1, 0, 1], [0, 1, 0], [1, 1, 0]] (.list (.numbers [1, 0, 0, 1])) ≠
          filled order' [[0, 0, 0], [1, 0, 1], [0, 1, 0], [1, 1, 0]] (.tuple (.numbers [1, 0, 0, 1]))) ∧
      (∃ dots, drawPoints order (.array (.rows [[0, 0, 0], [1, 0, 1]])) (.array (.numbers [5, 9]))
        (.tuple (.numbers [0, 0, 0, 1])) (.tuple (.numbers [0, 0, 0, 1])) (.number 0) = .ok dots) ∧
      drawPoints order (.array (.rows [[0, 0, 0], [1, 0, 1]])) (.list (.numbers [5, 9]))
        (.tuple (.numbers [0, 0, 0, 1])) (.tuple (.numbers [0, 0, 0, 1])) (.number 0) =
          .error .valueError ∧
      drawPoints order (.array (.rows [[0, 0, 0], [1, 0, 1]])) (.array (.numbers [5]))
        (.tuple (.numbers [0, 0, 0, 1])) (.tuple (.numbers [0, 0, 0, 1])) (.number 0) =
          .error .valueError ∧
      plain order (.list (.rows [[0, 0, 0], [1, 0, 1]])) = .error .attributeError := by
  refine ⟨swapOrder 2 0 1, swapOrder_sorts (by decide) (by decide), by decide +kernel,
    ⟨swapOrder 4 0 1, swapOrder_sorts (by decide) (by decide), by decide +kernel⟩, ?_, rfl, rfl, rfl⟩
  exact (sizes_drawn_iff _ _ (by simp) (by simp) _).2 (.inl ⟨_, rfl, rfl⟩)

/-- Two points with three colours, in a list or in an array: the same picture. -/
example : ∀ order, SortsByDepth order →
    filled order [[0, 0, 0], [1, 0, 1]] (.list (.rows [[1, 0, 0, 1], [0, 0, 1, 1], [0, 1, 0, 1]])) =
      filled order [[0, 0, 0], [1, 0, 1]] (.array (.rows [[1, 0, 0, 1], [0, 0, 1, 1], [0, 1, 0, 1]])) :=
  (colours_list_same_iff _ (by simp) _).2 (.inl (by decide))

example : ∃ n ps, MakesPoints n (.array (.rows [[0, 0, 0], [1, 0, 1]])) ps :=
  ⟨2, [[0, 0, 0], [1, 0, 1]], .rows _, .inl rfl, rfl, by simp, rfl, .inl rfl⟩

example : SizesFit 2 (.transform (.ok (.flat [3, 4]))) ∧ ¬ SizesFit 2 (.transform (.ok (.other 3))) := by
  simp [SizesFit]

end Verif
