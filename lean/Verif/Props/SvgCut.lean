import Verif.Lemmas.SvgCut
import Mathlib.Algebra.Order.Ring.Rat
/-! # C87: outlines that are not complete are refused -/

namespace Verif

section
variable {K : Type} [Field K] [LinearOrder K]

/-- C87. A path that breaks off within an item raises `IndexError`, wherever it breaks off and whatever
was drawn before; and one with a letter where a number is due raises `ValueError`, whatever follows. -/
theorem svg_cut_refused (arc : ArcFn K) (pts : ArcPts K) (ha : ArcDraws arc pts) (pos : Pt K)
    (is : List (Item K)) (i : Item K) (ts : List (SvgTok K)) (hm : Moved false (is ++ [i]))
    (hw : WrittenAs none is ts) (k : Nat) (hk : k < i.numbers.length) :
    parsePath arc pos (ts ++ i.letter :: i.numbers.take k) = .error .indexError ∧
    ∀ c a rest, parsePath arc pos (ts ++ i.letter :: (i.numbers.take k ++ .cmd c a :: rest)) =
      .error .valueError := by
  obtain ⟨h1, h2⟩ := moved_append hm
  obtain ⟨_, h3⟩ := moved_cons h2
  constructor
  · refine loop_then ha (by simp) is _ _ _ _ _ ts (follows_init pos) h1 hw le_rfl
      (fun s' pen' prev' hf => ?_)
    have := body_cut arc hf i h3 hk (tail := []) rfl
    rw [List.append_nil] at this
    simpa only [svgStep, letter_eq, svgCommand, bind, Except.bind] using this
  · intro c a rest
    refine loop_then ha (by simp) is _ _ _ _ _ ts (follows_init pos) h1 hw le_rfl
      (fun s' pen' prev' hf => ?_)
    have := body_cut arc hf i h3 hk (tail := .cmd c a :: rest) rfl
    simpa only [svgStep, letter_eq, svgCommand, bind, Except.bind] using this

/-- C87. A path that begins with a number raises `ValueError`. -/
theorem svg_number_first (arc : ArcFn K) (pos : Pt K) (x : K) (ts : List (SvgTok K)) :
    parsePath arc pos (.num x :: ts) = .error .valueError := by
  simp [parsePath, svgLoop, svgStep, svgCommand, bind, Except.bind, pure, Except.pure]

end

/-- "M 1 1 c 0 -1 2 -1 2": the curve has five numbers of six. -/
example :
    let is : List (Item ℚ) := [.moveTo true (1, 1)]
    let i : Item ℚ := .cubic false (0, -1) (2, -1) (2, 0)
    Moved false (is ++ [i]) ∧ 5 < i.numbers.length ∧
    parsePath (fun _ _ _ _ _ q => .ok [q]) (0, 0) (writeOut is ++ i.letter :: i.numbers.take 5) =
      .error .indexError := by
  refine ⟨by simp [Moved], by simp [Item.numbers, ptToks], by decide +kernel⟩

end Verif
