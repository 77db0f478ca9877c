import Verif.Lemmas.SvgText
import Verif.Props.Svg
/-
Properties of the text of SVG paths (C60).
-/

namespace Verif

/-- C60: a path written with any spelling of its numbers (signs, digits after a point, exponents,
digits before the point left out), and any white space or commas, or none where SVG allows it, is
cut into its letters and numbers. -/
theorem svg_text_partial (gs : List (SvgCmd × Bool × List NumText)) (sep cs : List Char)
    (hs : ∀ c ∈ sep, isSep c = true) (h : PathText gs cs) :
    tokenizePath (sep ++ cs) = groupToks gs := by
  simpa using tokenize_path gs [] sep cs hs h

/-- C60: so that the way a path is written does not matter. -/
theorem svg_spelling (gs gs' : List (SvgCmd × Bool × List NumText)) (cs cs' : List Char)
    (h : PathText gs cs) (h' : PathText gs' cs')
    (hv : gs.map (fun g => (g.1, g.2.1, g.2.2.map (·.val))) =
      gs'.map (fun g => (g.1, g.2.1, g.2.2.map (·.val))))
    (arc : ArcFn ℚ) (pos : Pt ℚ) :
    svgToPath arc pos (tokenizePath cs) = svgToPath arc pos (tokenizePath cs') := by
  have e1 := svg_text_partial gs [] cs (by simp) h
  have e2 := svg_text_partial gs' [] cs' (by simp) h'
  rw [List.nil_append] at e1 e2
  rw [e1, e2]
  have : ∀ l : List (SvgCmd × Bool × List NumText), groupToks l =
      (l.map (fun g => (g.1, g.2.1, g.2.2.map (·.val)))).flatMap
        (fun g => .cmd g.1 g.2.1 :: g.2.2.map SvgTok.num) := by
    intro l
    simp only [groupToks, List.flatMap_map, List.map_map]
    rfl
  rw [this, this, hv]

/-- `M1-.5.25e1,3`: four numbers. -/
def sampleText : List (SvgCmd × Bool × List NumText) :=
  [(.M, true, [⟨none, [1], [], none⟩, ⟨some true, [], [5], none⟩,
    ⟨none, [], [2, 5], some (false, none, [1])⟩, ⟨none, [3], [], none⟩])]

example : PathText sampleText "M1-.5.25e1,3".toList ∧
    groupToks sampleText = [.cmd .M true, .num 1, .num (-1 / 2), .num (5 / 2), .num 3] := by
  refine ⟨⟨'M', ⟨_, List.mem_cons_self, rfl, rfl⟩, "1-.5.25e1,3".toList, [], rfl, ?_, rfl⟩, by decide +kernel⟩
  refine ⟨[], "-.5.25e1,3".toList, by simp, by simp, by simp [NumText.Ok], by decide, ?_⟩
  refine ⟨[], ".25e1,3".toList, by simp, by simp [NumText.mayTouch], by simp [NumText.Ok],
    by decide, ?_⟩
  refine ⟨[], ",3".toList, by simp, by simp [NumText.mayTouch], by simp [NumText.Ok],
    by decide, ?_⟩
  exact ⟨[','], [], by decide, by simp, by simp [NumText.Ok], by decide, by simp [RunText]⟩

/-- C60 fails: SVG allows the flags of arcs to be written with nothing between, and (in version 1.1)
a point with no digit after it: the flags are read as one number, and the exponent after a point as
another number. -/
theorem svg_text_fails :
    tokenizePath "A1 1 0 0110 2".toList =
      [.cmd .A true, .num 1, .num 1, .num 0, .num 110, .num 2] ∧
    tokenizePath "H5.e1".toList = [.cmd .H true, .num 5, .num 1] := by
  constructor <;> decide +kernel

end Verif
