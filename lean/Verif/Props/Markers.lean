import Verif.Model.Markers
import Verif.Props.SvgArc
/-
Properties of the outlines of markers (C61, C68).
-/

namespace Verif

/-- Items from tokens, all letters written. -/
def explicitItems : List (SvgTok ℚ) → Option (List (Item ℚ))
  | [] => some []
  | .cmd .Z _ :: ts => (explicitItems ts).map (.close :: ·)
  | .cmd .M a :: .num x :: .num y :: ts => (explicitItems ts).map (.moveTo a (x, y) :: ·)
  | .cmd .L a :: .num x :: .num y :: ts => (explicitItems ts).map (.lineTo a (x, y) :: ·)
  | .cmd .H a :: .num x :: ts => (explicitItems ts).map (.horTo a x :: ·)
  | .cmd .V a :: .num x :: ts => (explicitItems ts).map (.verTo a x :: ·)
  | .cmd .C a :: .num x :: .num y :: .num z :: .num w :: .num u :: .num v :: ts =>
    (explicitItems ts).map (.cubic a (x, y) (z, w) (u, v) :: ·)
  | .cmd .A a :: .num x :: .num y :: .num z :: .num w :: .num u :: .num v :: .num t :: ts =>
    (explicitItems ts).map (.arcTo a (x, y) z w u (v, t) :: ·)
  | _ => none

/-- The items of a marker. -/
def markerItems (m : MarkerType) : List (Item ℚ) := (explicitItems (markerToks m)).getD []

instance decMoved {K : Type} : ∀ (b : Bool) (is : List (Item K)), Decidable (Moved b is)
  | _, [] => inferInstanceAs (Decidable True)
  | _, .moveTo _ _ :: is => decMoved true is
  | b, .close :: is => @instDecidableAnd _ _ (inferInstanceAs (Decidable (b = true))) (decMoved false is)
  | b, .lineTo _ _ :: is => @instDecidableAnd _ _ (inferInstanceAs (Decidable (b = true))) (decMoved true is)
  | b, .horTo _ _ :: is => @instDecidableAnd _ _ (inferInstanceAs (Decidable (b = true))) (decMoved true is)
  | b, .verTo _ _ :: is => @instDecidableAnd _ _ (inferInstanceAs (Decidable (b = true))) (decMoved true is)
  | b, .cubic _ _ _ _ :: is => @instDecidableAnd _ _ (inferInstanceAs (Decidable (b = true))) (decMoved true is)
  | b, .smooth _ _ _ :: is => @instDecidableAnd _ _ (inferInstanceAs (Decidable (b = true))) (decMoved true is)
  | b, .quad _ _ _ :: is => @instDecidableAnd _ _ (inferInstanceAs (Decidable (b = true))) (decMoved true is)
  | b, .smoothQuad _ _ :: is => @instDecidableAnd _ _ (inferInstanceAs (Decidable (b = true))) (decMoved true is)
  | b, .arcTo _ _ _ _ _ _ :: is => @instDecidableAnd _ _ (inferInstanceAs (Decidable (b = true))) (decMoved true is)

theorem marker_items (m : MarkerType) :
    Moved false (markerItems m) ∧ writeOut (markerItems m) = markerToks m := by
  cases m <;> decide +kernel

section
variable {K L : Type} (f : K → L)

/-- A point over another field. -/
def ptMap (p : Pt K) : Pt L := (f p.1, f p.2)

/-- An item over another field. -/
def Item.map : Item K → Item L
  | .moveTo a p => .moveTo a (ptMap f p)
  | .close => .close
  | .lineTo a p => .lineTo a (ptMap f p)
  | .horTo a x => .horTo a (f x)
  | .verTo a y => .verTo a (f y)
  | .cubic a c1 c2 p => .cubic a (ptMap f c1) (ptMap f c2) (ptMap f p)
  | .smooth a c2 p => .smooth a (ptMap f c2) (ptMap f p)
  | .quad a c p => .quad a (ptMap f c) (ptMap f p)
  | .smoothQuad a p => .smoothQuad a (ptMap f p)
  | .arcTo a r rot l s p => .arcTo a (ptMap f r) (f rot) (f l) (f s) (ptMap f p)

theorem moved_map (is : List (Item K)) : ∀ b, Moved b is → Moved b (is.map (Item.map f)) := by
  induction is with
  | nil => intro b h; exact h
  | cons i is ih =>
    intro b h
    cases i <;> simp only [Moved, List.map_cons, Item.map] at h ⊢ <;>
      first | exact ⟨h.1, ih _ h.2⟩ | exact ih _ h

theorem writeOut_map (is : List (Item K)) :
    writeOut (is.map (Item.map f)) = (writeOut is).map (SvgTok.map f) := by
  induction is with
  | nil => rfl
  | cons i is ih =>
    simp only [writeOut, List.map_cons, List.flatMap_cons, List.map_append, List.map_nil] at ih ⊢
    rw [ih]
    congr 1
    cases i <;> rfl

end

/-- A check of the first items. -/
def beginsOk : List (Item ℚ) → Bool
  | .moveTo true p :: .verTo true x :: _ => p.1 ≠ p.2 || (p == (3, 3) && x == 21)
  | .moveTo true p :: _ => p.1 ≠ p.2
  | _ => false

/-- The first vertices of an outline that passes. -/
theorem begins_spec {is : List (Item ℚ)} (h : beginsOk is = true) :
    ∃ p rest, is = .moveTo true p :: rest ∧
      (p.1 ≠ p.2 ∨ p = (3, 3) ∧ ∃ rest', rest = .verTo true 21 :: rest') := by
  unfold beginsOk at h
  split at h
  · rename_i p x rest
    refine ⟨p, _, rfl, ?_⟩
    simp only [Bool.or_eq_true, decide_eq_true_eq, Bool.and_eq_true, beq_iff_eq] at h
    rcases h with h | ⟨h1, h2⟩
    · exact Or.inl h
    · exact Or.inr ⟨h1, rest, by rw [h2]⟩
  · rename_i p rest _
    exact ⟨p, rest, rfl, Or.inl (by simpa using h)⟩
  · simp at h

theorem marker_begins (m : MarkerType) : beginsOk (markerItems m) = true := by
  cases m <;> decide +kernel

/-- C61: every marker type has an outline: it is read without an exception, has as many codes as
vertices, begins with a move, and fits the unit square around the origin. -/
theorem marker_outline (m : MarkerType) :
    ∃ codes verts, markerPath arcPath m = .ok (codes, some verts) ∧ codes.length = verts.length ∧
      codes.head? = some .moveto ∧
      ∀ p ∈ verts, -(1 / 2) ≤ p.1 ∧ p.1 ≤ 1 / 2 ∧ -(1 / 2) ≤ p.2 ∧ p.2 ≤ 1 / 2 := by
  obtain ⟨hm, hw⟩ := marker_items m
  have hbeg := marker_begins m
  unfold markerPath
  generalize markerItems m = is at hm hw hbeg
  generalize markerToks m = toks at hw ⊢
  have hm' := moved_map (fun q : ℚ => (q : ℝ)) _ _ hm
  have hw' := writeOut_writtenAs (is.map (Item.map (fun q : ℚ => (q : ℝ)))) none
  rw [writeOut_map, hw] at hw'
  obtain ⟨hp, hok⟩ := svg_path_with_arcs (0, 0) _ _ hm' hw'
  have hlen := (svg_wellformed arcPath arcPath_shape (0, 0) _ _ hp).2
  obtain ⟨p, rest, hb, hne⟩ := begins_spec hbeg
  set segs := Pen.drawAll arcPoints ⟨(0, 0), (0, 0), none, none⟩
    (is.map (Item.map (fun q : ℚ => (q : ℝ)))) with hsegs
  obtain ⟨tl, htl⟩ : ∃ tl, segs = ([.moveto], [((p.1 : ℝ), (p.2 : ℝ))]) :: tl := by
    rw [hsegs, hb]; exact ⟨_, rfl⟩
  have hx : (p.1 : ℝ) ∈ coords (segs.flatMap (·.2)) := by rw [htl]; simp [coords]
  obtain ⟨y, hy, hxy⟩ : ∃ y ∈ coords (segs.flatMap (·.2)), (p.1 : ℝ) ≠ y := by
    rcases hne with h | ⟨rfl, rest', rfl⟩
    · exact ⟨(p.2 : ℝ), by rw [htl]; simp [coords], by exact_mod_cast h⟩
    · refine ⟨21, ?_, by norm_num⟩
      rw [hsegs, hb]
      simp [Pen.drawAll, Item.map, Pen.draw, Pen.resolve, coords]
  obtain ⟨k, c, -, out, hout, hs, hfit, -⟩ := svg_unit_square (segs.flatMap (·.2)) _ _ hx hy hxy
  refine ⟨segs.flatMap (·.1), out, ?_, ?_, ?_, hfit⟩
  · unfold svgToPath
    rw [hp]
    simp only [bind, Except.bind, hs, pure, Except.pure]
  · rw [hout, List.length_map, hlen]
  · rw [htl]; rfl

/-- The outline of a marker before it is scaled, an arc being replaced by its end. -/
def markerSegs (m : MarkerType) : List (Seg ℚ) :=
  ((parsePath (fun _ _ _ _ _ p => .ok [p]) (0, 0) (markerToks m)).toOption).getD []

/-- The codes of the outline. -/
def markerCodes (m : MarkerType) : List PCode := (markerSegs m).flatMap (·.1)

/-- The corners and control points of the outline. -/
def markerPoints (m : MarkerType) : List (Pt ℚ) := (markerSegs m).flatMap (·.2)

/-- C68. The last side of an outline is drawn exactly when the outline is closed, which those of
`square`, `minus` and `diamond` are not: their borders have a gap. -/
theorem marker_closed_fails (m : MarkerType) :
    (markerCodes m).getLast? = some .closepoly ↔ m ∉ [.square, .minus, .diamond] := by
  cases m <;> decide +kernel

/-- C68. All markers but `star` and `spade` are their own mirror images with respect to the
vertical line through the middle of the drawing. -/
theorem marker_mirror_partial (m : MarkerType) (h : m ∉ [.star, .spade]) :
    markerPoints m ≠ [] ∧ ∀ p ∈ markerPoints m, (24 - p.1, p.2) ∈ markerPoints m := by
  revert h
  cases m <;> decide +kernel

/-- The inner corners of the star are at 16.54 and 7.45 instead of 7.46, and the two sides of the
stem of the spade are different curves. -/
theorem marker_mirror_fails :
    (1654 / 100, 1397 / 100) ∈ markerPoints .star ∧ (746 / 100, 1397 / 100) ∉ markerPoints .star ∧
    (1132 / 100, 19) ∈ markerPoints .spade ∧ (1268 / 100, 19) ∉ markerPoints .spade := by
  decide +kernel

/-- C68. These points are all: the other points of the star and of the spade have their mirror images. -/
theorem marker_mirror_rest :
    (∀ p ∈ markerPoints .star, p ∉ [(1654 / 100, 1397 / 100), (745 / 100, 1397 / 100)] →
      (24 - p.1, p.2) ∈ markerPoints .star) ∧
    (∀ p ∈ markerPoints .spade, p ∉ [(1132 / 100, 19), (13, 19)] →
      (24 - p.1, p.2) ∈ markerPoints .spade) := by
  decide +kernel

/-- C68. The square is a square, the diamond has four sides of the same length, and the plus and
the cross look the same after a quarter turn. -/
theorem marker_shapes :
    (markerPoints .square).map (fun p => (p.1 - 12, p.2 - 12)) =
      [(-9, -9), (-9, 9), (9, 9), (9, -9)] ∧
    ((markerPoints .diamond).zip ((markerPoints .diamond).rotate 1)).map
      (fun e => (e.1.1 - e.2.1) ^ 2 + (e.1.2 - e.2.2) ^ 2) = [149, 149, 149, 149] ∧
    (∀ p ∈ markerPoints .plus, (12 + (p.2 - 12), 12 - (p.1 - 12)) ∈ markerPoints .plus) ∧
    (∀ p ∈ markerPoints .cross, (12 + (p.2 - 12), 12 - (p.1 - 12)) ∈ markerPoints .cross) := by
  decide +kernel

example : markerPoints .triangle = [(1, 21), (23, 21), (12, 2), (1, 21), (1, 21)] := by
  decide +kernel

end Verif
