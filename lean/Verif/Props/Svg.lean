import Verif.Lemmas.Svg
import Mathlib.Tactic.Linarith
import Mathlib.Tactic.FieldSimp
import Mathlib.Algebra.Order.Ring.Rat
/-
Properties of outlines given as SVG paths (C46, C47, C48, C59).
-/

namespace Verif

section
variable {K : Type} [Field K] [LinearOrder K]

/-- C46, C47: a path whose subpaths all begin with a move, written with or without the letters that
may be left out, is read, without any exception, as what it means. -/
theorem svg_parse_draws (arc : ArcFn K) (pts : ArcPts K) (ha : ArcDraws arc pts) (pos : Pt K) (is : List (Item K)) (ts : List (SvgTok K))
    (hm : Moved false is) (hw : WrittenAs none is ts) :
    parsePath arc pos ts = .ok (Pen.drawAll pts ⟨pos, pos, none, none⟩ is) :=
  loop_items ha is _ _ _ _ _ _ (follows_init pos) hm hw le_rfl

/-- C46: whatever the tokens, if a path is given then each of its pieces has as many codes as
vertices, and as many as its kind requires. -/
theorem svg_wellformed (arc : ArcFn K) (ha : ArcShape arc) (pos : Pt K) (ts : List (SvgTok K))
    (segs : List (Seg K)) (h : parsePath arc pos ts = .ok segs) :
    (∀ g ∈ segs, SegOk g) ∧ (segs.flatMap (·.1)).length = (segs.flatMap (·.2)).length := by
  have hs := loop_shape ha _ _ _ _ (by simp) h
  refine ⟨hs, ?_⟩
  clear h
  induction segs with
  | nil => rfl
  | cons g gs ih =>
    simp only [List.flatMap_cons, List.length_append]
    rw [ih (fun x hx => hs x (List.mem_cons_of_mem _ hx)), (hs g (by simp)).1]

/-- C46: reading ends: the bound on the rounds is never reached, whatever the tokens. -/
theorem svg_terminates (arc : ArcFn K) (ha : ArcShape arc) (pos : Pt K) (ts : List (SvgTok K)) :
    parsePath arc pos ts ≠ .error .recursion :=
  loop_bound ha _ _ _ (by simp) le_rfl

/-- C47: the same path with the coordinates of any of its items made absolute or relative, in any
way of writing it, is read as the same. -/
theorem svg_relative (arc : ArcFn K) (pts : ArcPts K) (ha : ArcDraws arc pts) (pos : Pt K) (is : List (Item K)) (bs : List Bool)
    (ts ts' : List (SvgTok K)) (hm : Moved false is) (hw : WrittenAs none is ts)
    (hw' : WrittenAs none (Pen.recaseAll ⟨pos, pos, none, none⟩ bs is) ts') :
    parsePath arc pos ts' = parsePath arc pos ts := by
  rw [svg_parse_draws arc pts ha pos is ts hm hw,
    svg_parse_draws arc pts ha pos _ ts' (moved_recase is _ _ _ hm) hw', drawAll_recase]

/-- C47: the letters that may be left out make no difference. -/
theorem svg_implicit (arc : ArcFn K) (pts : ArcPts K) (ha : ArcDraws arc pts) (pos : Pt K) (is : List (Item K)) (ts : List (SvgTok K))
    (hm : Moved false is) (hw : WrittenAs none is ts) :
    parsePath arc pos ts = parsePath arc pos (writeOut is) := by
  rw [svg_parse_draws arc pts ha pos is ts hm hw,
    svg_parse_draws arc pts ha pos is _ hm (writeOut_writtenAs is none)]

end

/-- No arcs. -/
def noArc : ArcFn ℚ := fun _ _ _ _ _ q => .ok [q]

theorem noArc_shape : ArcShape noArc := fun _ _ _ _ _ q =>
  ⟨fun v hv => ⟨0, by simp only [noArc, Except.ok.injEq] at hv; simp [← hv]⟩, by simp [noArc]⟩

theorem noArc_draws : ArcDraws noArc (fun _ _ _ _ _ q => [q]) := fun _ _ _ _ _ _ _ _ _ => rfl

/-- A heart, more or less: `M 1 1 c 0 -1 2 -1 2 0 s -1 2 -2 2 Z m 5 0 1 1`. -/
def heart : List (Item ℚ) :=
  [.moveTo true (1, 1), .cubic false (0, -1) (2, -1) (2, 0), .smooth false (-1, 2) (-2, 2), .close,
    .moveTo false (5, 0), .lineTo false (1, 1)]

/-- Its tokens, the letter of the line left out. -/
def heartToks : List (SvgTok ℚ) :=
  [.cmd .M true, .num 1, .num 1, .cmd .C false, .num 0, .num (-1), .num 2, .num (-1), .num 2, .num 0,
    .cmd .S false, .num (-1), .num 2, .num (-2), .num 2, .cmd .Z true,
    .cmd .M false, .num 5, .num 0, .num 1, .num 1]

theorem heart_written : WrittenAs none heart heartToks := by
  refine ⟨_, ⟨_, ⟨_, ⟨_, ⟨_, ⟨_, rfl, Or.inr ⟨⟨_, rfl, rfl⟩, rfl⟩⟩, Or.inl rfl⟩, Or.inl rfl⟩,
    Or.inl rfl⟩, Or.inl rfl⟩, Or.inl rfl⟩

example : Moved false heart ∧ WrittenAs none heart heartToks := ⟨by simp [heart, Moved], heart_written⟩

example : parsePath noArc (0, 0) heartToks = .ok
    [([.moveto], [(1, 1)]), ([.curve4, .curve4, .curve4], [(1, 0), (3, 0), (3, 1)]),
      ([.curve4, .curve4, .curve4], [(3, 2), (2, 3), (1, 3)]), ([.lineto], [(1, 1)]),
      ([.closepoly], [(1, 1)]), ([.moveto], [(6, 1)]), ([.lineto], [(7, 2)])] := by decide +kernel

/-- The same, all relative and with all letters. -/
example : parsePath noArc (0, 0)
    (writeOut (Pen.recaseAll ⟨(0, 0), (0, 0), none, none⟩ [false, false, false] heart)) =
      parsePath noArc (0, 0) heartToks :=
  svg_relative noArc _ noArc_draws (0, 0) heart _ _ _ (by simp [heart, Moved]) heart_written
    (writeOut_writtenAs _ _)

/-- C46 fails for paths that do not begin a subpath with a move, which SVG allows after a close:
drawing goes on from there, but closing again raises AttributeError, a smooth curve TypeError. -/
theorem svg_subpath_fails :
    parsePath noArc (0, 0) (writeOut [.moveTo true (0, 0), .lineTo true (1, 0), .close,
      .lineTo true (1, 1), .close]) = .error .attributeError ∧
    parsePath noArc (0, 0) (writeOut [.moveTo true (0, 0), .lineTo true (1, 0), .close,
      .smooth true (1, 1) (2, 2)]) = .error .typeError := by
  constructor <;> decide +kernel

section
variable {K : Type} [Field K] [LinearOrder K] [IsStrictOrderedRing K]

theorem foldl_min_spec (cs : List K) : ∀ c : K,
    cs.foldl min c ∈ c :: cs ∧ ∀ x ∈ c :: cs, cs.foldl min c ≤ x := by
  induction cs with
  | nil => intro c; simp
  | cons d cs ih =>
    intro c
    obtain ⟨h1, h2⟩ := ih (min c d)
    simp only [List.foldl_cons]
    refine ⟨?_, ?_⟩
    · rcases List.mem_cons.1 h1 with h | h
      · rw [h]
        rcases min_choice c d with h | h <;> simp [h]
      · exact List.mem_cons_of_mem _ (List.mem_cons_of_mem _ h)
    · intro x hx
      have h0 := h2 (min c d) (by simp)
      rcases List.mem_cons.1 hx with rfl | hx
      · exact h0.trans (min_le_left _ _)
      · rcases List.mem_cons.1 hx with rfl | hx
        · exact h0.trans (min_le_right _ _)
        · exact h2 x (List.mem_cons_of_mem _ hx)

theorem foldl_max_spec (cs : List K) : ∀ c : K,
    cs.foldl max c ∈ c :: cs ∧ ∀ x ∈ c :: cs, x ≤ cs.foldl max c := by
  induction cs with
  | nil => intro c; simp
  | cons d cs ih =>
    intro c
    obtain ⟨h1, h2⟩ := ih (max c d)
    simp only [List.foldl_cons]
    refine ⟨?_, ?_⟩
    · rcases List.mem_cons.1 h1 with h | h
      · rw [h]
        rcases max_choice c d with h | h <;> simp [h]
      · exact List.mem_cons_of_mem _ (List.mem_cons_of_mem _ h)
    · intro x hx
      have h0 := h2 (max c d) (by simp)
      rcases List.mem_cons.1 hx with rfl | hx
      · exact (le_max_left _ _).trans h0
      · rcases List.mem_cons.1 hx with rfl | hx
        · exact (le_max_right _ _).trans h0
        · exact h2 x (List.mem_cons_of_mem _ hx)

theorem mem_coords {verts : List (Pt K)} {x : K} :
    x ∈ coords verts ↔ ∃ p ∈ verts, x = p.1 ∨ x = p.2 := by
  simp [coords]

/-- What the scaling is, when there are two distinct coordinates. -/
theorem svgScale_eq {verts : List (Pt K)} {x y : K} (hx : x ∈ coords verts)
    (hy : y ∈ coords verts) (hxy : x ≠ y) :
    ∃ lo hi, lo ∈ coords verts ∧ hi ∈ coords verts ∧ (∀ z ∈ coords verts, lo ≤ z ∧ z ≤ hi) ∧
      lo < hi ∧ svgScale verts = .ok (some (verts.map (fun p =>
        ((p.1 - lo) / (hi - lo) - 1 / 2, -((p.2 - lo) / (hi - lo) - 1 / 2))))) := by
  unfold svgScale
  cases hc : coords verts with
  | nil => rw [hc] at hx; simp at hx
  | cons c cs =>
    obtain ⟨h1, h2⟩ := foldl_min_spec cs c
    obtain ⟨h3, h4⟩ := foldl_max_spec cs c
    rw [hc] at hx hy
    have hlt : cs.foldl min c < cs.foldl max c := by
      rcases lt_or_gt_of_ne hxy with h | h
      · exact (h2 x hx).trans_lt (h.trans_le (h4 y hy))
      · exact (h2 y hy).trans_lt (h.trans_le (h4 x hx))
    refine ⟨_, _, h1, h3, fun z hz => ⟨h2 z hz, h4 z hz⟩, hlt, ?_⟩
    simp only
    rw [if_neg (sub_ne_zero.2 hlt.ne')]

/-- C48: when there are two distinct coordinates, the vertices are those given, enlarged by one
positive factor for both directions, shifted, and turned upside down; they lie in the unit square
around the origin, and touch it. -/
theorem svg_unit_square (verts : List (Pt K)) (x y : K) (hx : x ∈ coords verts)
    (hy : y ∈ coords verts) (hxy : x ≠ y) :
    ∃ k c : K, 0 < k ∧ ∃ out, out = verts.map (fun p => (k * p.1 + c, -(k * p.2 + c))) ∧
      svgScale verts = .ok (some out) ∧
      (∀ p ∈ out, -(1 / 2) ≤ p.1 ∧ p.1 ≤ 1 / 2 ∧ -(1 / 2) ≤ p.2 ∧ p.2 ≤ 1 / 2) ∧
      (∃ p ∈ out, p.1 = -(1 / 2) ∨ p.2 = 1 / 2) ∧ (∃ p ∈ out, p.1 = 1 / 2 ∨ p.2 = -(1 / 2)) := by
  obtain ⟨lo, hi, hlo, hhi, hb, hlt, he⟩ := svgScale_eq hx hy hxy
  have hd : 0 < hi - lo := sub_pos.2 hlt
  have hd' : hi - lo ≠ 0 := hd.ne'
  have hf : ∀ z : K, 1 / (hi - lo) * z + (-lo / (hi - lo) - 1 / 2) = (z - lo) / (hi - lo) - 1 / 2 := by
    intro z; field_simp; ring
  have hr : ∀ z ∈ coords verts, 0 ≤ (z - lo) / (hi - lo) ∧ (z - lo) / (hi - lo) ≤ 1 := by
    intro z hz
    obtain ⟨h1, h2⟩ := hb z hz
    exact ⟨div_nonneg (by linarith) hd.le, (div_le_one hd).2 (by linarith)⟩
  refine ⟨1 / (hi - lo), -lo / (hi - lo) - 1 / 2, by positivity, _, rfl, ?_, ?_, ?_, ?_⟩
  · simp only [hf]; exact he
  · intro p hp
    obtain ⟨q, hq, rfl⟩ := List.mem_map.1 hp
    have h1 := hr q.1 (mem_coords.2 ⟨q, hq, Or.inl rfl⟩)
    have h2 := hr q.2 (mem_coords.2 ⟨q, hq, Or.inr rfl⟩)
    simp only [hf]
    refine ⟨?_, ?_, ?_, ?_⟩ <;> linarith
  · obtain ⟨q, hq, h⟩ := mem_coords.1 hlo
    refine ⟨_, List.mem_map.2 ⟨q, hq, rfl⟩, ?_⟩
    simp only [hf]
    rcases h with h | h
    · left; rw [← h]; simp
    · right; rw [← h]; simp
  · obtain ⟨q, hq, h⟩ := mem_coords.1 hhi
    refine ⟨_, List.mem_map.2 ⟨q, hq, rfl⟩, ?_⟩
    simp only [hf]
    rcases h with h | h
    · left; rw [← h, div_self hd']; norm_num
    · right; rw [← h, div_self hd']; norm_num

/-- C48: with no vertex an exception, with all coordinates equal no numbers. -/
theorem svg_degenerate (verts : List (Pt K)) (c : K) (h : ∀ x ∈ coords verts, x = c) :
    svgScale verts = if verts = [] then .error .valueError else .ok none := by
  unfold svgScale
  cases hv : verts with
  | nil => rfl
  | cons p ps =>
    rw [hv] at h
    simp only [reduceCtorEq, if_false]
    have hc : coords (p :: ps) = p.1 :: p.2 :: coords ps := rfl
    rw [hc] at h ⊢
    obtain ⟨h1, -⟩ := foldl_min_spec (p.2 :: coords ps) p.1
    obtain ⟨h3, -⟩ := foldl_max_spec (p.2 :: coords ps) p.1
    simp only
    rw [h _ h1, h _ h3, sub_self, if_pos rfl]

/-- C59, in part: neither enlarging an outline, nor shifting it by the same amount in both
directions, changes the marker. -/
theorem svg_same_marker_partial (verts : List (Pt K)) (x y : K) (hx : x ∈ coords verts)
    (hy : y ∈ coords verts) (hxy : x ≠ y) (k c : K) (hk : 0 < k) :
    svgScale (verts.map (fun p => (k * p.1 + c, k * p.2 + c))) = svgScale verts := by
  obtain ⟨lo, hi, hlo, hhi, hb, hlt, he⟩ := svgScale_eq hx hy hxy
  have hm : ∀ z, z ∈ coords (verts.map (fun p => (k * p.1 + c, k * p.2 + c))) ↔
      ∃ w ∈ coords verts, z = k * w + c := by
    intro z
    simp only [mem_coords, List.mem_map]
    constructor
    · rintro ⟨_, ⟨q, hq, rfl⟩, h | h⟩
      · exact ⟨_, ⟨q, hq, Or.inl rfl⟩, h⟩
      · exact ⟨_, ⟨q, hq, Or.inr rfl⟩, h⟩
    · rintro ⟨w, ⟨q, hq, rfl | rfl⟩, h⟩
      · exact ⟨_, ⟨q, hq, rfl⟩, Or.inl h⟩
      · exact ⟨_, ⟨q, hq, rfl⟩, Or.inr h⟩
  have hlt' : k * lo + c < k * hi + c := by
    have := mul_lt_mul_of_pos_left hlt hk
    linarith
  obtain ⟨lo', hi', hlo', hhi', hb', -, he'⟩ := svgScale_eq
    ((hm _).2 ⟨lo, hlo, rfl⟩) ((hm _).2 ⟨hi, hhi, rfl⟩) hlt'.ne
  have e1 : lo' = k * lo + c := by
    apply le_antisymm (hb' _ ((hm _).2 ⟨lo, hlo, rfl⟩)).1
    obtain ⟨w, hw, rfl⟩ := (hm _).1 hlo'
    have := mul_le_mul_of_nonneg_left (hb w hw).1 hk.le
    linarith
  have e2 : hi' = k * hi + c := by
    apply le_antisymm _ (hb' _ ((hm _).2 ⟨hi, hhi, rfl⟩)).2
    obtain ⟨w, hw, rfl⟩ := (hm _).1 hhi'
    have := mul_le_mul_of_nonneg_left (hb w hw).2 hk.le
    linarith
  rw [he, he', e1, e2, List.map_map]
  congr 3
  funext p
  have h1 : ∀ z : K, (k * z + c - (k * lo + c)) / (k * hi + c - (k * lo + c)) =
      (z - lo) / (hi - lo) := by
    intro z
    have hd : hi - lo ≠ 0 := (sub_pos.2 hlt).ne'
    rw [show k * hi + c - (k * lo + c) = k * (hi - lo) by ring,
      show k * z + c - (k * lo + c) = k * (z - lo) by ring, mul_div_mul_left _ _ hk.ne']
  simp only [Function.comp, h1]

/-- Shifting an outline in one direction does change the marker: it shrinks and leaves the
middle. -/
theorem svg_same_marker_fails :
    svgScale ([(0, 0), (1, 0), (1, 1)] : List (Pt ℚ)) =
      .ok (some [(-1 / 2, 1 / 2), (1 / 2, 1 / 2), (1 / 2, -1 / 2)]) ∧
    svgScale ([(0, 3), (1, 3), (1, 4)] : List (Pt ℚ)) =
      .ok (some [(-1 / 2, -1 / 4), (-1 / 4, -1 / 4), (-1 / 4, -1 / 2)]) := by
  constructor <;> decide +kernel

end

example : svgScale ([(0, 0), (4, 1), (2, 3)] : List (Pt ℚ)) =
    .ok (some [(-1 / 2, 1 / 2), (1 / 2, 1 / 4), (0, -1 / 4)]) := by decide +kernel

end Verif
