import Verif.Spec.Room
import Verif.Lemmas.Ragged
/-
C91: which positions and indices visuals can be drawn with.
-/

namespace Verif

theorem assign_rows (n m c : Nat) : assignShape [n, c] [m, c] = .ok () ↔ m = n ∨ m = 1 := by
  unfold assignShape
  simp only [List.reverse_cons, List.reverse_nil, List.nil_append, List.cons_append, assignRev]
  by_cases h : m = n ∨ m = 1 <;> simp [h]

theorem reshapeRows_ok (shape : List Nat) (m : Nat) :
    reshapeRows shape = .ok m ↔ shape.prod = 3 * m := by
  unfold reshapeRows
  constructor
  · intro h
    split at h
    · injection h with h; omega
    · cases h
  · intro h
    rw [if_pos (by omega)]
    congr 1
    omega

/-- **C91 for Points and Markers, exactly.** They are drawn just when the positions hold three numbers for
each point. -/
theorem points_shape_iff (k : VKind) (hk : k = .points ∨ k = .markers) (shape : List Nat) (ix : IndexForm) :
    (∃ es, madeAndDrawn k shape ix = .ok es) ↔ HoldsEach 3 shape := by
  cases shape with
  | nil =>
    constructor
    · rintro ⟨es, h⟩
      rcases hk with rfl | rfl <;> cases h
    · rintro ⟨⟩
  | cons n s =>
    have hred : madeAndDrawn k (n :: s) ix = (reshapeRows (n :: s) >>= fun m =>
        assignShape [n, 3] [m, 3] >>= fun _ => .ok ((List.range m).map (fun i => [i]))) := by
      rcases hk with rfl | rfl <;> rfl
    have hprod : (n :: s).prod = n * s.prod := by simp
    rw [hred]
    constructor
    · rintro ⟨es, h⟩
      cases hr : reshapeRows (n :: s) with
      | error e => rw [hr] at h; cases h
      | ok m =>
        cases ha : assignShape [n, 3] [m, 3] with
        | error e => simp only [hr, bind, Except.bind, ha] at h; cases h
        | ok u =>
          have h1 := (reshapeRows_ok _ _).1 hr
          have h2 := (assign_rows n m 3).1 ha
          rw [hprod] at h1
          rcases h2 with rfl | rfl
          · rcases Nat.eq_zero_or_pos m with h0 | h0
            · exact .inl h0
            · right; left
              exact Nat.eq_of_mul_eq_mul_left h0 (by rw [h1, Nat.mul_comm])
          · exact .inr (.inr h1)
    · intro h
      have key : ∀ m, (n :: s).prod = 3 * m → (m = n ∨ m = 1) →
          ∃ es, (reshapeRows (n :: s) >>= fun m =>
            assignShape [n, 3] [m, 3] >>= fun _ => .ok ((List.range m).map (fun i => [i]))) = .ok es := by
        intro m h1 h2
        simp only [(reshapeRows_ok _ _).2 h1, (assign_rows n m 3).2 h2, bind, Except.bind]
        exact ⟨_, rfl⟩
      rcases h with rfl | h | h
      · exact key 0 (by simp) (.inl rfl)
      · exact key n (by rw [hprod, h, Nat.mul_comm]) (.inl rfl)
      · exact key 1 (by rw [hprod, h]) (.inr rfl)

/-- With three numbers for each of `n` points, `n` points are drawn. -/
theorem points_all_drawn (k : VKind) (hk : k = .points ∨ k = .markers) (n : Nat) (s : List Nat)
    (hs : s.prod = 3) (ix : IndexForm) :
    madeAndDrawn k (n :: s) ix = .ok ((List.range n).map (fun i => [i])) := by
  have hred : madeAndDrawn k (n :: s) ix = (reshapeRows (n :: s) >>= fun m =>
      assignShape [n, 3] [m, 3] >>= fun _ => .ok ((List.range m).map (fun i => [i]))) := by
    rcases hk with rfl | rfl <;> rfl
  rw [hred, (reshapeRows_ok (n :: s) n).2 (by simp [hs, Nat.mul_comm])]
  simp only [(assign_rows n n 3).2 (.inl rfl), bind, Except.bind]

/-- **C91 for Pixels, exactly.** They are drawn just when the positions are rows of two, three or four
numbers (or are the four numbers of one pixel, or there are none). -/
theorem pixels_shape_iff (shape : List Nat) (ix : IndexForm) :
    (∃ es, madeAndDrawn .pixels shape ix = .ok es) ↔
      (∃ n k, shape = [n, k] ∧ (k = 2 ∨ k = 3 ∨ k = 4)) ∨ shape = [4] ∨ shape = [0] := by
  cases shape with
  | nil =>
    constructor
    · rintro ⟨es, h⟩; cases h
    · rintro (⟨n, k, h, -⟩ | h | h) <;> cases h
  | cons n s =>
    have hred : madeAndDrawn .pixels (n :: s) ix = (vec4Rows (n :: s) >>= fun m =>
        assignShape [n, 3] [m, 3] >>= fun _ => .ok ((List.range m).map (fun i => [i]))) := rfl
    rw [hred]
    cases s with
    | nil =>
      simp only [vec4Rows]
      constructor
      · rintro ⟨es, h⟩
        by_cases h4 : n % 4 = 0
        · rw [if_pos h4] at h
          cases ha : assignShape [n, 3] [n / 4, 3] with
          | error e => simp only [bind, Except.bind, ha] at h; cases h
          | ok u =>
            rcases (assign_rows n (n / 4) 3).1 ha with h' | h'
            · right; right; congr 1; omega
            · right; left; congr 1; omega
        · rw [if_neg h4] at h
          cases h
      · rintro (⟨n', k, h, -⟩ | h | h)
        · cases h
        · injection h with h; subst h; exact ⟨_, rfl⟩
        · injection h with h; subst h; exact ⟨_, rfl⟩
    | cons k s =>
      cases s with
      | nil =>
        simp only [vec4Rows]
        constructor
        · rintro ⟨es, h⟩
          by_cases hk : k = 2 ∨ k = 3 ∨ k = 4
          · exact .inl ⟨n, k, rfl, hk⟩
          · rw [if_neg hk] at h
            cases h
        · rintro (⟨n', k', h, hk⟩ | h | h)
          · injection h with h1 h2
            injection h2 with h2
            subst h2
            rw [if_pos hk]
            simp only [(assign_rows n n 3).2 (.inl rfl), bind, Except.bind]
            exact ⟨_, rfl⟩
          · cases h
          · cases h
      | cons l s =>
        constructor
        · rintro ⟨es, h⟩; cases h
        · rintro (⟨n', k', h, hk⟩ | h | h) <;> cases h

theorem assign_segments (n m : Nat) :
    assignShape [n, 2, 3] [m, 2, 3] = .ok () ↔ m = n ∨ m = 1 := by
  unfold assignShape
  simp only [List.reverse_cons, List.reverse_nil, List.nil_append, List.cons_append, assignRev]
  by_cases h : m = n ∨ m = 1 <;> simp [h]

theorem assign_one (n m : Nat) : assignShape [n] [m] = .ok () ↔ m = n ∨ m = 1 := by
  unfold assignShape
  simp only [List.reverse_cons, List.reverse_nil, List.nil_append, List.cons_append, assignRev]
  by_cases h : m = n ∨ m = 1 <;> simp [h]

/-- **C91 for Segments, exactly.** They are drawn just when the positions hold six numbers for each
segment. -/
theorem segments_shape_iff (shape : List Nat) (ix : IndexForm) :
    (∃ es, madeAndDrawn .segments shape ix = .ok es) ↔ HoldsEach 6 shape := by
  cases shape with
  | nil =>
    constructor
    · rintro ⟨es, h⟩; cases h
    · rintro ⟨⟩
  | cons n s =>
    have hred : madeAndDrawn .segments (n :: s) ix = (reshapeRows (n :: s) >>= fun m =>
        if m % 2 ≠ 0 then .error .valueError
        else assignShape [n, 2, 3] [m / 2, 2, 3] >>= fun _ => assignShape [n] [m / 2] >>= fun _ =>
          .ok ((List.range (m / 2)).map (fun i => [2 * i, 2 * i + 1]))) := rfl
    have hprod : (n :: s).prod = n * s.prod := by simp
    rw [hred]
    constructor
    · rintro ⟨es, h⟩
      cases hr : reshapeRows (n :: s) with
      | error e => rw [hr] at h; cases h
      | ok m =>
        simp only [hr, bind, Except.bind] at h
        by_cases h2 : m % 2 = 0
        · rw [if_neg (by omega)] at h
          cases ha : assignShape [n, 2, 3] [m / 2, 2, 3] with
          | error e => simp only [ha] at h; cases h
          | ok u =>
            have h1 := (reshapeRows_ok _ _).1 hr
            rw [hprod] at h1
            rcases (assign_segments n (m / 2)).1 ha with h' | h'
            · rcases Nat.eq_zero_or_pos n with h0 | h0
              · exact .inl h0
              · right; left
                refine Nat.eq_of_mul_eq_mul_left h0 ?_
                rw [h1]; omega
            · right; right
              rw [h1]; omega
        · rw [if_pos (by omega)] at h
          cases h
    · intro h
      have key : ∀ m, (n :: s).prod = 3 * m → m % 2 = 0 → (m / 2 = n ∨ m / 2 = 1) →
          ∃ es, (reshapeRows (n :: s) >>= fun m =>
            if m % 2 ≠ 0 then .error .valueError
            else assignShape [n, 2, 3] [m / 2, 2, 3] >>= fun _ => assignShape [n] [m / 2] >>= fun _ =>
              .ok ((List.range (m / 2)).map (fun i => [2 * i, 2 * i + 1]))) = .ok es := by
        intro m h1 h2 h3
        simp only [(reshapeRows_ok _ _).2 h1, bind, Except.bind]
        rw [if_neg (by omega)]
        simp only [(assign_segments n (m / 2)).2 h3, (assign_one n (m / 2)).2 h3]
        exact ⟨_, rfl⟩
      rcases h with rfl | h | h
      · exact key 0 (by simp) rfl (.inl rfl)
      · exact key (2 * n) (by rw [hprod, h]; omega) (by omega) (.inl (by omega))
      · exact key 2 (by rw [hprod, h]) rfl (.inr rfl)

/-- With six numbers for each of `n` segments, `n` segments are drawn, each between its two vertices. -/
theorem segments_all_drawn (n : Nat) (s : List Nat) (hs : s.prod = 6) (ix : IndexForm) :
    madeAndDrawn .segments (n :: s) ix = .ok ((List.range n).map (fun i => [2 * i, 2 * i + 1])) := by
  have hred : madeAndDrawn .segments (n :: s) ix = (reshapeRows (n :: s) >>= fun m =>
      if m % 2 ≠ 0 then .error .valueError
      else assignShape [n, 2, 3] [m / 2, 2, 3] >>= fun _ => assignShape [n] [m / 2] >>= fun _ =>
        .ok ((List.range (m / 2)).map (fun i => [2 * i, 2 * i + 1]))) := rfl
  have hd : 2 * n / 2 = n := by omega
  rw [hred, (reshapeRows_ok (n :: s) (2 * n)).2 (by simp only [List.prod_cons, hs]; omega)]
  simp only [bind, Except.bind]
  rw [if_neg (by omega)]
  simp only [hd, (assign_segments n n).2 (.inl rfl), (assign_one n n).2 (.inl rfl)]

/-- **C91 fails for Segments**: segments given by their vertices, two rows of three coordinates for each,
raise ValueError when rendered, as soon as there are two segments. -/
theorem segments_by_vertices_fails (n : Nat) (hn : 2 ≤ n) (ix : IndexForm) :
    madeAndDrawn .segments [2 * n, 3] ix = .error .valueError := by
  have hred : madeAndDrawn .segments [2 * n, 3] ix = (reshapeRows [2 * n, 3] >>= fun m =>
      if m % 2 ≠ 0 then .error .valueError
      else assignShape [2 * n, 2, 3] [m / 2, 2, 3] >>= fun _ => assignShape [2 * n] [m / 2] >>= fun _ =>
        .ok ((List.range (m / 2)).map (fun i => [2 * i, 2 * i + 1]))) := rfl
  have hd : 2 * n / 2 = n := by omega
  rw [hred, (reshapeRows_ok [2 * n, 3] (2 * n)).2 (by simp; omega)]
  simp only [bind, Except.bind]
  rw [if_neg (by omega)]
  simp only [hd]
  have : assignShape [2 * n, 2, 3] [n, 2, 3] = .error .valueError := by
    unfold assignShape
    rw [if_neg]
    simp [assignRev]
    omega
  rw [this]

/-! ### Paths and polygons -/

theorem cutSizes_length {α : Type} (xs : List α) : ∀ (start : Int) (ns : List Int),
    (cutSizes xs start ns).length = ns.length
  | _, [] => rfl
  | start, n :: ns => by simp [cutSizes, cutSizes_length xs]

theorem assign_pieces (n m : Nat) :
    assignShape [n, 3] (pointsShape m) = .ok () ↔ m ≠ 0 ∧ (m = n ∨ m = 1) := by
  unfold pointsShape
  by_cases hm : m = 0
  · subst hm
    unfold assignShape
    simp [assignRev]
  · rw [if_neg hm, assign_rows]
    simp [hm]

theorem mapM_ok_iff_forall {α β : Type} {f : α → Except Err β} {l : List α} :
    (∃ r, l.mapM f = .ok r) ↔ ∀ x ∈ l, ∃ y, f x = .ok y := by
  induction l with
  | nil => simp [pure, Except.pure]
  | cons a l ih =>
    rw [List.mapM_cons]
    constructor
    · rintro ⟨r, h⟩
      cases ha : f a with
      | error e => rw [ha] at h; cases h
      | ok y =>
        cases hl : l.mapM f with
        | error e => simp only [ha, bind, Except.bind, hl] at h; cases h
        | ok ys =>
          intro x hx
          rcases List.mem_cons.1 hx with rfl | hx
          · exact ⟨y, ha⟩
          · exact ih.1 ⟨ys, hl⟩ x hx
    · intro h
      obtain ⟨y, hy⟩ := h a (by simp)
      obtain ⟨ys, hys⟩ := ih.2 (fun x hx => h x (by simp [hx]))
      simp only [hy, hys, bind, Except.bind]
      exact ⟨_, rfl⟩

theorem mapM_except_length {α β : Type} {f : α → Except Err β} : ∀ {l : List α} {r : List β},
    l.mapM f = .ok r → r.length = l.length
  | [], r, h => by
    simp only [List.mapM_nil, pure, Except.pure] at h
    injection h with h
    subst h
    rfl
  | a :: l, r, h => by
    rw [List.mapM_cons] at h
    cases ha : f a with
    | error e => rw [ha] at h; cases h
    | ok y =>
      cases hl : l.mapM f with
      | error e => simp only [ha, bind, Except.bind, hl] at h; cases h
      | ok ys =>
        simp only [ha, bind, Except.bind, hl, pure, Except.pure] at h
        injection h with h
        subst h
        simp [mapM_except_length hl]

theorem npGet_range_iff (n : Nat) (i : Int) :
    (∃ x, npGet (List.range n) i = .ok x) ↔ -(n : Int) ≤ i ∧ i < n := by
  simp only [npGet_ok_iff, List.length_range]
  constructor
  · rintro ⟨x, j, hj, he⟩
    have := (List.getElem?_eq_some_iff.1 hj).1
    rw [List.length_range] at this
    split at he <;> omega
  · rintro ⟨h1, h2⟩
    have h3 : (if i < 0 then i + (n : Int) else i).toNat < n := by split <;> omega
    refine ⟨_, (if i < 0 then i + (n : Int) else i).toNat, List.getElem?_range h3, ?_⟩
    split <;> omega

/-- **C91 for Paths and Polygons, exactly**, for positions of three numbers for each vertex: they are drawn
just when the indices make at least one path, as `IndicesDraw` says. -/
theorem paths_drawn_iff (k : VKind) (hk : k = .paths ∨ k = .polygons) (n : Nat) (s : List Nat)
    (hs : s.prod = 3) (ix : IndexForm) :
    (∃ es, madeAndDrawn k (n :: s) ix = .ok es) ↔ IndicesDraw n ix := by
  have hred : madeAndDrawn k (n :: s) ix = (pieceRoom n ix >>= fun c => pieces n ix >>= fun ps =>
      assignShape [c, 3] (pointsShape ps.length) >>= fun _ => .ok ps) := by
    have h1 : reshapeRows (n :: s) = .ok n := (reshapeRows_ok _ _).2 (by simp [hs, Nat.mul_comm])
    have h2 := (assign_rows n n 3).2 (.inl rfl)
    cases hp : pieceRoom n ix with
    | error e =>
      rcases hk with rfl | rfl <;>
        simp only [madeAndDrawn, makeRoom, shapeLen, bind, Except.bind, hp]
    | ok c =>
      rcases hk with rfl | rfl <;>
        simp only [madeAndDrawn, makeRoom, shapeLen, bind, Except.bind, hp, pure, Except.pure, drawRoom, h1,
          h2, Option.getD_some]
  have hiff : (∃ es, madeAndDrawn k (n :: s) ix = .ok es) ↔
      ∃ c ps, pieceRoom n ix = .ok c ∧ pieces n ix = .ok ps ∧ ps.length ≠ 0 ∧
        (ps.length = c ∨ ps.length = 1) := by
    rw [hred]
    constructor
    · rintro ⟨es, h⟩
      cases hc : pieceRoom n ix with
      | error e => rw [hc] at h; cases h
      | ok c =>
        cases hp : pieces n ix with
        | error e => simp only [hc, bind, Except.bind, hp] at h; cases h
        | ok ps =>
          cases ha : assignShape [c, 3] (pointsShape ps.length) with
          | error e => simp only [hc, bind, Except.bind, hp, ha] at h; cases h
          | ok u => exact ⟨c, ps, rfl, rfl, (assign_pieces _ _).1 ha⟩
    · rintro ⟨c, ps, hc, hp, ha⟩
      simp only [hc, bind, Except.bind, hp, (assign_pieces _ _).2 ha]
      exact ⟨_, rfl⟩
  rw [hiff]
  cases ix with
  | int z =>
    simp only [IndicesDraw, pieceRoom, pieces, cutPaths, cutEqual, List.length_range]
    constructor
    · rintro ⟨c, ps, hc, hp, h0, -⟩
      split at hc
      · cases hc
      · next hz =>
        split at hc
        · cases hc
        · next hneg =>
          rw [if_neg hz] at hp
          injection hp with hp
          subst hp
          simp only [List.length_map, List.length_range] at h0
          have hpos : 0 < Int.fdiv n z := by omega
          have hz0 : 0 < z := by
            by_contra hlt
            have : Int.fdiv n z ≤ 0 := Int.fdiv_nonpos_of_nonneg_of_nonpos (by omega) (by omega)
            omega
          refine ⟨hz0, ?_⟩
          rw [Int.fdiv_eq_ediv_of_nonneg _ hz0.le] at hpos
          by_contra hlt
          rw [Int.ediv_eq_zero_of_lt (by omega) (by omega)] at hpos
          omega
    · rintro ⟨h1, h2⟩
      have hpos : 0 < Int.fdiv n z := by
        rw [Int.fdiv_eq_ediv_of_nonneg _ h1.le]
        have := (Int.le_ediv_iff_mul_le (a := 1) (b := (n : Int)) h1).2 (by omega)
        omega
      rw [if_neg (by omega), if_neg (by omega), if_neg (by omega)]
      exact ⟨_, _, rfl, rfl, by simp; omega, .inl (by simp)⟩
  | array ns =>
    simp only [IndicesDraw, pieceRoom, pieces, cutPaths]
    constructor
    · rintro ⟨c, ps, hc, hp, h0, -⟩
      injection hp with hp
      subst hp
      rw [cutSizes_length] at h0
      simpa using h0
    · intro h
      refine ⟨_, _, rfl, rfl, ?_, .inl ?_⟩
      · rw [cutSizes_length]; simpa using h
      · rw [cutSizes_length]
  | list ixs =>
    simp only [IndicesDraw, pieceRoom, pieces, cutPaths]
    have hall : (∃ ps, ixs.mapM (fun ix => ix.mapM (npGet (List.range n))) = .ok ps) ↔
        ∀ ix ∈ ixs, ∀ i ∈ ix, -(n : Int) ≤ i ∧ i < n := by
      rw [mapM_ok_iff_forall]
      refine forall_congr' fun ix => forall_congr' fun _ => ?_
      rw [mapM_ok_iff_forall]
      exact forall_congr' fun i => forall_congr' fun _ => npGet_range_iff n i
    constructor
    · rintro ⟨c, ps, hc, hp, h0, -⟩
      refine ⟨?_, hall.1 ⟨ps, hp⟩⟩
      rw [mapM_except_length hp] at h0
      simpa using h0
    · rintro ⟨h1, h2⟩
      obtain ⟨ps, hp⟩ := hall.2 h2
      refine ⟨_, ps, rfl, hp, ?_, .inl (mapM_except_length hp)⟩
      rw [mapM_except_length hp]
      simpa using h1
  | vlist ixs =>
    simp only [IndicesDraw, pieceRoom, pieces, cutPaths]
    constructor
    · rintro ⟨c, ps, hc, hp, h0, h1⟩
      injection hp with hp
      subst hp
      injection hc with hc
      subst hc
      rw [cutSizes_length] at h0 h1
      exact ⟨fun h => h0 (by rw [h]; rfl), h1⟩
    · rintro ⟨h0, h1⟩
      refine ⟨_, _, rfl, rfl, ?_, ?_⟩
      · rw [cutSizes_length]
        exact fun h => h0 (List.length_eq_zero_iff.1 h)
      · rw [cutSizes_length]; exact h1
  | gspList c =>
    simp only [IndicesDraw, pieces]
    exact ⟨fun ⟨_, _, _, h, _⟩ => (by cases h), False.elim⟩
  | transform ns =>
    simp only [IndicesDraw, pieceRoom]
    exact ⟨fun ⟨_, _, h, _⟩ => (by cases h), False.elim⟩

/-- Which exception: a List with one size, a List with a buffer of sizes, a transform, a size of zero, a
size greater than the number of vertices. -/
theorem paths_refused (k : VKind) (hk : k = .paths ∨ k = .polygons) (n : Nat) (s : List Nat)
    (hs : s.prod = 3) :
    madeAndDrawn k (n :: s) (.gspList none) = .error .nameError ∧
    (∀ c, madeAndDrawn k (n :: s) (.gspList (some c)) = .error .typeError) ∧
    (∀ ns, madeAndDrawn k (n :: s) (.transform ns) = .error .typeError) ∧
    madeAndDrawn k (n :: s) (.int 0) = .error .zeroDivision ∧
    (∀ z : Int, n < z → madeAndDrawn k (n :: s) (.int z) = .error .valueError) := by
  have h1 : reshapeRows (n :: s) = .ok n := (reshapeRows_ok _ _).2 (by simp [hs, Nat.mul_comm])
  have h2 := (assign_rows n n 3).2 (.inl rfl)
  refine ⟨?_, fun c => ?_, fun ns => ?_, ?_, fun z hz => ?_⟩
  · rcases hk with rfl | rfl <;> rfl
  · rcases hk with rfl | rfl <;>
      simp only [madeAndDrawn, makeRoom, shapeLen, bind, Except.bind, pieceRoom, pure, Except.pure, drawRoom,
        h1, pieces]
  · rcases hk with rfl | rfl <;> rfl
  · rcases hk with rfl | rfl <;> rfl
  · have hd : Int.fdiv n z = 0 := by
      rw [Int.fdiv_eq_ediv_of_nonneg _ (by omega)]
      exact Int.ediv_eq_zero_of_lt (by omega) hz
    have hz0 : z ≠ 0 := by omega
    rcases hk with rfl | rfl <;>
      simp only [madeAndDrawn, makeRoom, shapeLen, bind, Except.bind, pieceRoom, hz0, if_false, hd, pure,
        Except.pure, drawRoom, h1, pieces, cutPaths, cutEqual, List.length_range, h2, Option.getD_some,
        lt_irrefl, Int.toNat_zero, List.range_zero, List.map_nil, List.length_nil] <;>
      rfl

/-- **C91 fails for ragged arrays**: two paths of three vertices each, given as a `vlist`, raise, and where
they do not their indices are taken for sizes: the paths of vertices 1 and 2 are those of one and of two
vertices. -/
theorem vlist_indices_fails :
    madeAndDrawn .paths [6, 3] (.list [[0, 1, 2], [3, 4, 5]]) = .ok [[0, 1, 2], [3, 4, 5]] ∧
    madeAndDrawn .paths [6, 3] (.vlist [[0, 1, 2], [3, 4, 5]]) = .error .valueError ∧
    madeAndDrawn .paths [6, 3] (.list [[1], [2]]) = .ok [[1], [2]] ∧
    madeAndDrawn .paths [6, 3] (.vlist [[1], [2]]) = .ok [[0], [1, 2]] := by
  decide +kernel

/-! ### Replacing the positions -/

/-- **C91, replacing.** Points and markers made with `n` positions, whose positions are then
replaced by `m` others, are drawn just when there are as many, or one. -/
theorem positions_replaced_iff (k : VKind) (hk : k = .points ∨ k = .markers) (n m : Nat) (ix : IndexForm) :
    (∃ room es, makeRoom k [n, 3] ix = .ok room ∧ drawRoom k room [m, 3] ix = .ok es) ↔
      m = n ∨ m = 1 := by
  have h1 : reshapeRows [m, 3] = .ok m := (reshapeRows_ok _ _).2 (by simp [Nat.mul_comm])
  constructor
  · rintro ⟨room, es, hr, hd⟩
    have hroom : room = ⟨[n, 3], none⟩ := by
      rcases hk with rfl | rfl <;> (injection hr with hr; exact hr.symm)
    subst hroom
    cases ha : assignShape [n, 3] [m, 3] with
    | error e =>
      rcases hk with rfl | rfl <;>
        (simp only [drawRoom, h1, bind, Except.bind, ha] at hd; cases hd)
    | ok u => exact (assign_rows n m 3).1 ha
  · intro h
    have ha := (assign_rows n m 3).2 h
    refine ⟨⟨[n, 3], none⟩, (List.range m).map (fun i => [i]), ?_, ?_⟩
    · rcases hk with rfl | rfl <;> rfl
    · rcases hk with rfl | rfl <;> simp only [drawRoom, h1, bind, Except.bind, ha] <;> rfl

/-- The same for segments. -/
theorem segments_replaced_iff (n m : Nat) (ix : IndexForm) :
    (∃ room es, makeRoom .segments [n, 2, 3] ix = .ok room ∧
      drawRoom .segments room [m, 2, 3] ix = .ok es) ↔ m = n ∨ m = 1 := by
  have h1 : reshapeRows [m, 2, 3] = .ok (2 * m) := (reshapeRows_ok _ _).2 (by simp; omega)
  have h2 : 2 * m / 2 = m := by omega
  have h3 : ¬ (2 * m % 2 ≠ 0) := by omega
  constructor
  · rintro ⟨room, es, hr, hd⟩
    have hroom : room = ⟨[n, 2, 3], some [n]⟩ := by injection hr with hr; exact hr.symm
    subst hroom
    cases ha : assignShape [n, 2, 3] [m, 2, 3] with
    | error e =>
      simp only [drawRoom, h1, bind, Except.bind, if_neg h3, h2, ha] at hd
      cases hd
    | ok u => exact (assign_segments n m).1 ha
  · intro h
    refine ⟨⟨[n, 2, 3], some [n]⟩, (List.range m).map (fun i => [2 * i, 2 * i + 1]), rfl, ?_⟩
    simp only [drawRoom, h1, bind, Except.bind, if_neg h3, h2, (assign_segments n m).2 h, Option.getD_some,
      (assign_one n m).2 h]
    rfl

example : madeAndDrawn .segments [2, 2, 3] (.int 1) = .ok [[0, 1], [2, 3]] ∧
    madeAndDrawn .segments [4, 3] (.int 1) = .error .valueError ∧
    madeAndDrawn .pixels [3, 2] (.int 1) = .ok [[0], [1], [2]] ∧
    madeAndDrawn .points [3, 2] (.int 1) = .error .valueError ∧
    madeAndDrawn .polygons [7, 3] (.int 3) = .ok [[0, 1, 2], [3, 4, 5]] ∧
    madeAndDrawn .polygons [7, 3] (.array []) = .error .valueError := by
  decide +kernel

end Verif
