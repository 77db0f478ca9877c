import Verif.Lemmas.Svg
import Mathlib.Tactic.IntervalCases
/-! Reading a path that goes wrong after some items (C87). -/

namespace Verif

section
variable {K : Type} [Field K] [LinearOrder K]

/-- An item with a number missing: what reading the next number raises is raised. -/
theorem body_cut (arc : ArcFn K) {s : SvgState K} {pen : Pen K} {inside : Bool} {prev : Option (Item K)}
    (h : PenFollows s pen inside prev) (i : Item K)
    (hin : (∀ a p, i ≠ .moveTo a p) → inside = true) {k : Nat} (hk : k < i.numbers.length)
    {tail : List (SvgTok K)} {e : Err} (hp : popNum tail = .error e) :
    svgBody arc s s.command i.cmdOf.1 i.cmdOf.2 (i.numbers.take k ++ tail) = .error e := by
  cases i with
  | smooth a c2 p =>
    obtain rfl : inside = true := hin (by simp)
    have hs := smoothControl_cubic h
    simp only [Item.numbers, ptToks, List.cons_append, List.nil_append, List.length_cons,
      List.length_nil] at hk
    interval_cases k <;>
      simp [svgBody, Item.cmdOf, Item.numbers, ptToks, nextPos, popNum_num, hp, hs, bind, Except.bind, pure, Except.pure]
  | smoothQuad a p =>
    obtain rfl : inside = true := hin (by simp)
    have hs := smoothControl_quad h
    simp only [Item.numbers, ptToks, List.length_cons, List.length_nil] at hk
    interval_cases k <;>
      simp [svgBody, Item.cmdOf, Item.numbers, ptToks, nextPos, popNum_num, hp, hs, bind, Except.bind, pure, Except.pure]
  | close => simp [Item.numbers] at hk
  | _ =>
    simp only [Item.numbers, ptToks, List.cons_append, List.nil_append, List.length_cons,
      List.length_nil] at hk
    interval_cases k <;>
      simp [svgBody, Item.cmdOf, Item.numbers, ptToks, nextPos, popNum_num, hp, bind, Except.bind, pure, Except.pure]

/-- Whether a subpath is open after some items. -/
def insideAll (inside : Bool) (is : List (Item K)) : Bool := (is.getLast?.map insideAfter).getD inside

theorem moved_append {is js : List (Item K)} : ∀ {inside : Bool}, Moved inside (is ++ js) →
    Moved inside is ∧ Moved (insideAll inside is) js := by
  induction is with
  | nil => intro inside h; exact ⟨by simp [Moved], h⟩
  | cons i is ih =>
    intro inside h
    obtain ⟨h1, h2⟩ := moved_cons h
    obtain ⟨h3, h4⟩ := ih h1
    have he : insideAll inside (i :: is) = insideAll (insideAfter i) is := by
      cases is with
      | nil => rfl
      | cons j is => simp [insideAll, List.getLast?_cons_cons, List.getLast?_cons]
    rw [he]
    refine ⟨?_, h4⟩
    cases i <;> simp_all [Moved, insideAfter]

/-- What is raised after some items is raised by the path. -/
theorem loop_then {arc : ArcFn K} {pts : ArcPts K} (ha : ArcDraws arc pts) {bad : List (SvgTok K)} {e : Err}
    (hb : bad ≠ []) (is : List (Item K)) : ∀ (n : Nat) (s : SvgState K) (pen : Pen K) (inside : Bool)
    (prev : Option (Item K)) (ts : List (SvgTok K)),
    PenFollows s pen inside prev → Moved inside is → WrittenAs prev is ts → (ts ++ bad).length ≤ n →
    (∀ s' pen' prev', PenFollows s' pen' (insideAll inside is) prev' → svgStep arc s' bad = .error e) →
    svgLoop arc n s (ts ++ bad) = .error e := by
  induction is with
  | nil =>
    intro n s pen inside prev ts hf _ hw hn hbad
    simp only [WrittenAs] at hw
    subst hw
    have := hbad s pen prev hf
    match bad, n, hb with
    | b :: bs, 0, _ => simp at hn
    | b :: bs, n + 1, _ => simp only [List.nil_append, svgLoop, this]
  | cons i is ih =>
    intro n s pen inside prev ts hf hm hw hn hbad
    obtain ⟨rest, hr, hts⟩ := hw
    obtain ⟨hm1, hm2⟩ := moved_cons hm
    have hts' : ts ++ bad = i.letter :: (i.numbers ++ (rest ++ bad)) ∨
        (∃ p ∈ prev, p.mayFollow i = true) ∧ ts ++ bad = i.numbers ++ (rest ++ bad) := by
      rcases hts with h | ⟨h, h'⟩
      · left; rw [h]; simp
      · right; exact ⟨h, by rw [h']; simp⟩
    obtain ⟨s', h1, h2, h3⟩ := step_item ha hf i hm2 (rest ++ bad) (ts ++ bad) hts'
    have he : insideAll inside (i :: is) = insideAll (insideAfter i) is := by
      cases is with
      | nil => rfl
      | cons j is => simp [insideAll, List.getLast?_cons_cons, List.getLast?_cons]
    generalize ts ++ bad = tb at *
    match tb, n with
    | [], _ => simp at h3
    | t :: ts, 0 => simp at hn
    | t :: ts, n + 1 =>
      simp only [svgLoop, h1]
      rw [ih n s' _ _ _ rest h2 hm1 hr (by simp at hn h3 ⊢; omega) (by rw [← he]; exact hbad)]

end

end Verif
