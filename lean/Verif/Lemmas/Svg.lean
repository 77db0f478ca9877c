import Verif.Spec.Svg
import Mathlib.Tactic.Ring
import Mathlib.Algebra.Group.Prod
/-
Lemmas on the parser of SVG paths.
-/

namespace Verif

section
variable {K : Type}

@[simp] theorem popNum_num (x : K) (ts : List (SvgTok K)) : popNum (.num x :: ts) = .ok (x, ts) := rfl

@[simp] theorem nextPos_num (x y : K) (ts : List (SvgTok K)) :
    nextPos (.num x :: .num y :: ts) = .ok ((x, y), ts) := rfl

theorem popNum_length {ts ts' : List (SvgTok K)} {x : K} (h : popNum ts = .ok (x, ts')) :
    ts'.length < ts.length := by
  match ts with
  | [] => simp [popNum] at h
  | .cmd _ _ :: _ => simp [popNum] at h
  | .num y :: r =>
    simp only [popNum, Except.ok.injEq, Prod.mk.injEq] at h
    simp [← h.2]

theorem nextPos_length {ts ts' : List (SvgTok K)} {p : Pt K} (h : nextPos ts = .ok (p, ts')) :
    ts'.length < ts.length := by
  unfold nextPos at h
  cases h1 : popNum ts with
  | error e => simp [h1, bind, Except.bind] at h
  | ok a =>
    obtain ⟨x, t1⟩ := a
    cases h2 : popNum t1 with
    | error e => simp [h1, h2, bind, Except.bind] at h
    | ok b =>
      obtain ⟨y, t2⟩ := b
      simp [h1, h2, bind, Except.bind, pure, Except.pure] at h
      have := popNum_length h1
      have := popNum_length h2
      rw [← h.2]; omega

variable [Field K] [LinearOrder K]

/-- What the parser's state says about the pen, after an item. -/
structure PenFollows (s : SvgState K) (pen : Pen K) (inside : Bool) (prev : Option (Item K)) : Prop where
  cur : s.cur = pen.cur
  start : s.start = if inside then some pen.start else none
  implicit : ∀ p ∈ prev, ∀ i, p.mayFollow i = true →
    ∃ c, s.command = some c ∧ i.letter = .cmd c s.absolute
  command : inside = true → s.command ≠ none
  cubic : ∀ c, s.command = some c →
    (c ∈ [SvgCmd.C, SvgCmd.S] → pen.cubicCtl = s.control2 ∧ s.control2.isSome) ∧
      (c ∉ [SvgCmd.C, SvgCmd.S] → pen.cubicCtl = none)
  quad : ∀ c, s.command = some c →
    (c ∈ [SvgCmd.Q, SvgCmd.T] → pen.quadCtl = s.control ∧ s.control.isSome) ∧
      (c ∉ [SvgCmd.Q, SvgCmd.T] → pen.quadCtl = none)

/-- Whether a subpath is open after an item. -/
def insideAfter : Item K → Bool
  | .close => false
  | _ => true

theorem moved_cons {inside : Bool} {i : Item K} {is : List (Item K)} (h : Moved inside (i :: is)) :
    Moved (insideAfter i) is ∧ ((∀ a p, i ≠ .moveTo a p) → inside = true) := by
  cases i <;> simp_all [Moved, insideAfter]

theorem smoothControl_cubic {s : SvgState K} {pen : Pen K} {prev : Option (Item K)}
    (h : PenFollows s pen true prev) :
    smoothControl s.command [.C, .S] s.cur s.control2 = .ok (reflect pen.cur pen.cubicCtl) := by
  cases hc : s.command with
  | none => exact absurd hc (h.command rfl)
  | some c =>
    have := h.cubic c hc
    unfold smoothControl
    by_cases hm : c ∈ [SvgCmd.C, SvgCmd.S]
    · obtain ⟨h1, h2⟩ := this.1 hm
      obtain ⟨k, hk⟩ := Option.isSome_iff_exists.1 h2
      simp only [hm, if_true, hk, h1, reflect, h.cur]
      congr 1
      ext <;> simp <;> ring
    · simp only [hm, if_false, this.2 hm, reflect, h.cur]

theorem smoothControl_quad {s : SvgState K} {pen : Pen K} {prev : Option (Item K)}
    (h : PenFollows s pen true prev) :
    smoothControl s.command [.Q, .T] s.cur s.control = .ok (reflect pen.cur pen.quadCtl) := by
  cases hc : s.command with
  | none => exact absurd hc (h.command rfl)
  | some c =>
    have := h.quad c hc
    unfold smoothControl
    by_cases hm : c ∈ [SvgCmd.Q, SvgCmd.T]
    · obtain ⟨h1, h2⟩ := this.1 hm
      obtain ⟨k, hk⟩ := Option.isSome_iff_exists.1 h2
      simp only [hm, if_true, hk, h1, reflect, h.cur]
      congr 1
      ext <;> simp <;> ring
    · simp only [hm, if_false, this.2 hm, reflect, h.cur]

/-- The command and case of an item. -/
def Item.cmdOf : Item K → SvgCmd × Bool
  | .moveTo a _ => (.M, a)
  | .close => (.Z, true)
  | .lineTo a _ => (.L, a)
  | .horTo a _ => (.H, a)
  | .verTo a _ => (.V, a)
  | .cubic a _ _ _ => (.C, a)
  | .smooth a _ _ => (.S, a)
  | .quad a _ _ => (.Q, a)
  | .smoothQuad a _ => (.T, a)
  | .arcTo a _ _ _ _ _ => (.A, a)

theorem letter_eq (i : Item K) : i.letter = .cmd i.cmdOf.1 i.cmdOf.2 := by cases i <;> rfl

omit [Field K] [LinearOrder K] in
theorem numbers_head {i p : Item K} (h : p.mayFollow i = true) (rest : List (SvgTok K)) :
    ∃ x ts, i.numbers ++ rest = .num x :: ts := by
  cases i <;> first | (cases p <;> simp [Item.mayFollow] at h; done) | exact ⟨_, _, rfl⟩

/-- One round takes one item. -/
theorem body_item {arc : ArcFn K} {pts : ArcPts K} (ha : ArcDraws arc pts) {s : SvgState K} {pen : Pen K} {inside : Bool}
    {prev : Option (Item K)} (h : PenFollows s pen inside prev) (i : Item K)
    (hin : (∀ a p, i ≠ .moveTo a p) → inside = true) (rest : List (SvgTok K)) :
    ∃ s', svgBody arc s s.command i.cmdOf.1 i.cmdOf.2 (i.numbers ++ rest) =
        .ok (s', pen.draw pts (pen.resolve i), rest) ∧
      PenFollows s' (pen.after (pen.resolve i)) (insideAfter i) (some i) := by
  have hcur := h.cur
  cases i with
  | moveTo a p =>
    refine ⟨_, by simp [svgBody, Item.cmdOf, Item.numbers, ptToks, bind, Except.bind, pure,
      Except.pure, Pen.draw, Pen.resolve, place, hcur]; rfl, ?_⟩
    refine ⟨by simp [Pen.after, Pen.resolve, place, hcur],
      by simp [Pen.after, Pen.resolve, place, hcur, insideAfter], ?_, by simp, ?_, ?_⟩
    · rintro q hq i hi
      simp only [Option.mem_some_iff] at hq
      subst hq
      cases i <;> simp_all [Item.mayFollow, Item.letter]
    · simp [Pen.after, Pen.resolve]
    · simp [Pen.after, Pen.resolve]
  | close =>
    have hi := hin (by simp)
    subst hi
    have hst := h.start
    simp only [if_true] at hst
    refine ⟨_, by simp [svgBody, Item.cmdOf, Item.numbers, hst, Pen.draw, Pen.resolve, hcur]; rfl, ?_⟩
    refine ⟨by simp [Pen.after, Pen.resolve], by simp [insideAfter], ?_, by simp [insideAfter],
      by simp, by simp⟩
    rintro q hq i hi
    simp only [Option.mem_some_iff] at hq
    subst hq
    cases i <;> simp_all [Item.mayFollow]
  | lineTo a p =>
    have hi := hin (by simp)
    subst hi
    refine ⟨_, by simp [svgBody, Item.cmdOf, Item.numbers, ptToks, bind, Except.bind, pure,
      Except.pure, Pen.draw, Pen.resolve, place, hcur, add_comm]; rfl, ?_⟩
    refine ⟨by simp [Pen.after, Pen.resolve, place, hcur, add_comm],
      by simpa [Pen.after, Pen.resolve, insideAfter] using h.start, ?_, by simp, ?_, ?_⟩
    · rintro q hq i hi
      simp only [Option.mem_some_iff] at hq
      subst hq
      cases i <;> simp_all [Item.mayFollow, Item.letter]
    · simp [Pen.after, Pen.resolve]
    · simp [Pen.after, Pen.resolve]
  | horTo a p =>
    have hi := hin (by simp)
    subst hi
    refine ⟨{ s with command := some .H, absolute := a,
                     cur := (if a then p else pen.cur.1 + p, pen.cur.2) }, ?_, ?_⟩
    · cases a <;> simp [svgBody, Item.cmdOf, Item.numbers, bind, Except.bind, pure,
        Except.pure, Pen.draw, Pen.resolve, hcur, add_comm]
    refine ⟨by simp [Pen.after, Pen.resolve],
      by simpa [Pen.after, Pen.resolve, insideAfter] using h.start, ?_, by simp, ?_, ?_⟩
    · rintro q hq i hi
      simp only [Option.mem_some_iff] at hq
      subst hq
      cases i <;> simp_all [Item.mayFollow, Item.letter]
    · simp [Pen.after, Pen.resolve]
    · simp [Pen.after, Pen.resolve]
  | verTo a p =>
    have hi := hin (by simp)
    subst hi
    refine ⟨{ s with command := some .V, absolute := a,
                     cur := (pen.cur.1, if a then p else pen.cur.2 + p) }, ?_, ?_⟩
    · cases a <;> simp [svgBody, Item.cmdOf, Item.numbers, bind, Except.bind, pure,
        Except.pure, Pen.draw, Pen.resolve, hcur, add_comm]
    refine ⟨by simp [Pen.after, Pen.resolve],
      by simpa [Pen.after, Pen.resolve, insideAfter] using h.start, ?_, by simp, ?_, ?_⟩
    · rintro q hq i hi
      simp only [Option.mem_some_iff] at hq
      subst hq
      cases i <;> simp_all [Item.mayFollow, Item.letter]
    · simp [Pen.after, Pen.resolve]
    · simp [Pen.after, Pen.resolve]
  | cubic a c1 c2 p =>
    have hi := hin (by simp)
    subst hi
    refine ⟨_, by simp [svgBody, Item.cmdOf, Item.numbers, ptToks, bind, Except.bind, pure,
      Except.pure, Pen.draw, Pen.resolve, place, hcur, add_comm]; rfl, ?_⟩
    refine ⟨by simp [Pen.after, Pen.resolve, place, hcur, add_comm],
      by simpa [Pen.after, Pen.resolve, insideAfter] using h.start, ?_, by simp, ?_, ?_⟩
    · rintro q hq i hi
      simp only [Option.mem_some_iff] at hq
      subst hq
      cases i <;> simp_all [Item.mayFollow, Item.letter]
    · simp [Pen.after, Pen.resolve, place, add_comm]
    · simp [Pen.after, Pen.resolve]
  | smooth a c2 p =>
    have hi := hin (by simp)
    subst hi
    have hk := smoothControl_cubic h
    rw [hcur] at hk
    refine ⟨_, by simp [svgBody, Item.cmdOf, Item.numbers, ptToks, bind, Except.bind, pure,
      Except.pure, Pen.draw, Pen.resolve, place, hcur, add_comm, hk]; rfl, ?_⟩
    refine ⟨by simp [Pen.after, Pen.resolve, place, hcur, add_comm],
      by simpa [Pen.after, Pen.resolve, insideAfter] using h.start, ?_, by simp, ?_, ?_⟩
    · rintro q hq i hi
      simp only [Option.mem_some_iff] at hq
      subst hq
      cases i <;> simp_all [Item.mayFollow, Item.letter]
    · simp [Pen.after, Pen.resolve, place, add_comm]
    · simp [Pen.after, Pen.resolve]
  | quad a c p =>
    have hi := hin (by simp)
    subst hi
    refine ⟨_, by simp [svgBody, Item.cmdOf, Item.numbers, ptToks, bind, Except.bind, pure,
      Except.pure, Pen.draw, Pen.resolve, place, hcur, add_comm]; rfl, ?_⟩
    refine ⟨by simp [Pen.after, Pen.resolve, place, hcur, add_comm],
      by simpa [Pen.after, Pen.resolve, insideAfter] using h.start, ?_, by simp, ?_, ?_⟩
    · rintro q hq i hi
      simp only [Option.mem_some_iff] at hq
      subst hq
      cases i <;> simp_all [Item.mayFollow, Item.letter]
    · simp [Pen.after, Pen.resolve]
    · simp [Pen.after, Pen.resolve, place, add_comm]
  | smoothQuad a p =>
    have hi := hin (by simp)
    subst hi
    have hk := smoothControl_quad h
    rw [hcur] at hk
    refine ⟨_, by simp [svgBody, Item.cmdOf, Item.numbers, ptToks, bind, Except.bind, pure,
      Except.pure, Pen.draw, Pen.resolve, place, hcur, add_comm, hk]; rfl, ?_⟩
    refine ⟨by simp [Pen.after, Pen.resolve, place, hcur, add_comm],
      by simpa [Pen.after, Pen.resolve, insideAfter] using h.start, ?_, by simp, ?_, ?_⟩
    · rintro q hq i hi
      simp only [Option.mem_some_iff] at hq
      subst hq
      cases i <;> simp_all [Item.mayFollow, Item.letter]
    · simp [Pen.after, Pen.resolve]
    · simp [Pen.after, Pen.resolve, place, add_comm]
  | arcTo a r rot l sw p =>
    have hi := hin (by simp)
    subst hi
    refine ⟨{ s with command := some .A, absolute := a, cur := place a pen.cur p }, ?_, ?_⟩
    · have hp : (if a = true then (p.1, p.2) else (p.1, p.2) + pen.cur) = place a pen.cur p := by
        simp [place, add_comm]
      simp only [svgBody, Item.cmdOf, Item.numbers, ptToks, List.cons_append, List.nil_append,
        nextPos_num, popNum_num, bind, Except.bind, hcur, hp, Pen.draw, Pen.resolve]
      by_cases h1 : pen.cur = place a pen.cur p
      · rw [if_pos h1, if_pos h1, ← h1, ← hcur]; rfl
      · by_cases h2 : r.1 = 0 ∨ r.2 = 0
        · simp only [h1, if_false, h2, if_true, pure, Except.pure]
        · rw [ha _ _ _ _ _ _ h1 (fun h => h2 (Or.inl h)) (fun h => h2 (Or.inr h))]
          simp only [h1, if_false, h2, pure, Except.pure]
    refine ⟨by simp [Pen.after, Pen.resolve],
      by simpa [Pen.after, Pen.resolve, insideAfter] using h.start, ?_, by simp, ?_, ?_⟩
    · rintro q hq i hi
      simp only [Option.mem_some_iff] at hq
      subst hq
      cases i <;> simp_all [Item.mayFollow, Item.letter]
    · simp [Pen.after, Pen.resolve]
    · simp [Pen.after, Pen.resolve]

theorem step_item {arc : ArcFn K} {pts : ArcPts K} (ha : ArcDraws arc pts) {s : SvgState K} {pen : Pen K} {inside : Bool}
    {prev : Option (Item K)} (h : PenFollows s pen inside prev) (i : Item K)
    (hin : (∀ a p, i ≠ .moveTo a p) → inside = true) (rest ts : List (SvgTok K))
    (hts : ts = i.letter :: (i.numbers ++ rest) ∨
      (∃ p ∈ prev, p.mayFollow i = true) ∧ ts = i.numbers ++ rest) :
    ∃ s', svgStep arc s ts = .ok (s', pen.draw pts (pen.resolve i), rest) ∧
      PenFollows s' (pen.after (pen.resolve i)) (insideAfter i) (some i) ∧
      rest.length < ts.length := by
  obtain ⟨s', h1, h2⟩ := body_item ha h i hin rest
  refine ⟨s', ?_, h2, ?_⟩
  · rcases hts with hts | ⟨⟨p, hp, hpi⟩, hts⟩
    · subst hts
      rw [letter_eq]
      exact h1
    · obtain ⟨c, hc, hl⟩ := h.implicit p hp i hpi
      obtain ⟨x, t, hx⟩ := numbers_head hpi rest
      rw [letter_eq] at hl
      simp only [SvgTok.cmd.injEq] at hl
      rw [hts, hx]
      rw [hx, hl.1, hl.2, hc] at h1
      simp only [svgStep, svgCommand, hc, bind, Except.bind]
      exact h1
  · rcases hts with hts | ⟨⟨p, hp, hpi⟩, hts⟩
    · subst hts; simp; omega
    · obtain ⟨x, t, hx⟩ := numbers_head hpi []
      rw [List.append_nil] at hx
      rw [hts, hx]; simp; omega

theorem loop_items {arc : ArcFn K} {pts : ArcPts K} (ha : ArcDraws arc pts) (is : List (Item K)) : ∀ (n : Nat) (s : SvgState K) (pen : Pen K)
    (inside : Bool) (prev : Option (Item K)) (ts : List (SvgTok K)),
    PenFollows s pen inside prev → Moved inside is → WrittenAs prev is ts → ts.length ≤ n →
    svgLoop arc n s ts = .ok (pen.drawAll pts is) := by
  induction is with
  | nil =>
    intro n s pen inside prev ts _ _ hw _
    simp only [WrittenAs] at hw
    subst hw
    cases n <;> rfl
  | cons i is ih =>
    intro n s pen inside prev ts hf hm hw hn
    obtain ⟨rest, hr, hts⟩ := hw
    obtain ⟨hm1, hm2⟩ := moved_cons hm
    obtain ⟨s', h1, h2, h3⟩ := step_item ha hf i hm2 rest ts hts
    match ts, n with
    | [], _ => simp at h3
    | t :: ts, 0 => simp at hn
    | t :: ts, n + 1 =>
      simp only [svgLoop, h1]
      rw [ih n s' _ _ _ rest h2 hm1 hr (by simp at hn h3; omega)]
      rfl

/-- The state and the pen at the beginning. -/
theorem follows_init (pos : Pt K) :
    PenFollows ⟨pos, none, none, true, none, none⟩ ⟨pos, pos, none, none⟩ false none :=
  ⟨rfl, rfl, by simp, by simp, by simp, by simp⟩

omit [Field K] [LinearOrder K] in
theorem bind_eq_ok {α β : Type} {x : Except Err α} {f : α → Except Err β} {b : β} :
    (x >>= f) = .ok b ↔ ∃ a, x = .ok a ∧ f a = .ok b := by
  cases x <;> simp [bind, Except.bind]

/-- A round takes numbers, and what it gives is well formed. -/
theorem body_shape {arc : ArcFn K} (ha : ArcShape arc) {s s' : SvgState K}
    {last : Option SvgCmd} {c : SvgCmd} {a : Bool} {ts rest : List (SvgTok K)}
    {out : List (Seg K)} (h : svgBody arc s last c a ts = .ok (s', out, rest)) :
    (c ≠ .Z → rest.length < ts.length) ∧ rest.length ≤ ts.length ∧ (∀ g ∈ out, SegOk g) ∧
      s'.command ≠ some .Z := by
  cases c with
  | M =>
    simp only [svgBody, bind_eq_ok, pure, Except.pure, Except.ok.injEq, Prod.mk.injEq] at h
    obtain ⟨⟨p, t1⟩, h1, rfl, rfl, rfl⟩ := h
    have := nextPos_length h1
    exact ⟨fun _ => this, this.le, by simp [SegOk], by simp⟩
  | Z =>
    simp only [svgBody] at h
    cases hs : s.start with
    | none => simp [hs] at h
    | some p =>
      simp only [hs, Except.ok.injEq, Prod.mk.injEq] at h
      obtain ⟨rfl, rfl, rfl⟩ := h
      refine ⟨by simp, le_rfl, ?_, by simp⟩
      by_cases hc : s.cur = p <;> simp [hc, SegOk]
  | L =>
    simp only [svgBody, bind_eq_ok, pure, Except.pure, Except.ok.injEq, Prod.mk.injEq] at h
    obtain ⟨⟨p, t1⟩, h1, rfl, rfl, rfl⟩ := h
    have := nextPos_length h1
    exact ⟨fun _ => this, this.le, by simp [SegOk], by simp⟩
  | H =>
    simp only [svgBody, bind_eq_ok, pure, Except.pure, Except.ok.injEq, Prod.mk.injEq] at h
    obtain ⟨⟨p, t1⟩, h1, rfl, rfl, rfl⟩ := h
    have := popNum_length h1
    exact ⟨fun _ => this, this.le, by simp [SegOk], by simp⟩
  | V =>
    simp only [svgBody, bind_eq_ok, pure, Except.pure, Except.ok.injEq, Prod.mk.injEq] at h
    obtain ⟨⟨p, t1⟩, h1, rfl, rfl, rfl⟩ := h
    have := popNum_length h1
    exact ⟨fun _ => this, this.le, by simp [SegOk], by simp⟩
  | C =>
    simp only [svgBody, bind_eq_ok, pure, Except.pure, Except.ok.injEq, Prod.mk.injEq] at h
    obtain ⟨⟨p1, t1⟩, h1, ⟨p2, t2⟩, h2, ⟨p3, t3⟩, h3, rfl, rfl, rfl⟩ := h
    have := nextPos_length h1
    have := nextPos_length h2
    have := nextPos_length h3
    exact ⟨fun _ => by (dsimp only at *); omega, by (dsimp only at *); omega, by simpa [SegOk] using ⟨1, rfl⟩, by simp⟩
  | S =>
    simp only [svgBody, bind_eq_ok, pure, Except.pure, Except.ok.injEq, Prod.mk.injEq] at h
    obtain ⟨p1, h1, ⟨p2, t2⟩, h2, ⟨p3, t3⟩, h3, rfl, rfl, rfl⟩ := h
    have := nextPos_length h2
    have := nextPos_length h3
    exact ⟨fun _ => by (dsimp only at *); omega, by (dsimp only at *); omega, by simpa [SegOk] using ⟨1, rfl⟩, by simp⟩
  | Q =>
    simp only [svgBody, bind_eq_ok, pure, Except.pure, Except.ok.injEq, Prod.mk.injEq] at h
    obtain ⟨⟨p2, t2⟩, h2, ⟨p3, t3⟩, h3, rfl, rfl, rfl⟩ := h
    have := nextPos_length h2
    have := nextPos_length h3
    exact ⟨fun _ => by (dsimp only at *); omega, by (dsimp only at *); omega, by simp [SegOk], by simp⟩
  | T =>
    simp only [svgBody, bind_eq_ok, pure, Except.pure, Except.ok.injEq, Prod.mk.injEq] at h
    obtain ⟨p1, h1, ⟨p2, t2⟩, h2, rfl, rfl, rfl⟩ := h
    have := nextPos_length h2
    exact ⟨fun _ => by (dsimp only at *); omega, by (dsimp only at *); omega, by simp [SegOk], by simp⟩
  | A =>
    simp only [svgBody, bind_eq_ok] at h
    obtain ⟨⟨r, t1⟩, h1, ⟨rot, t2⟩, h2, ⟨l, t3⟩, h3, ⟨sw, t4⟩, h4, ⟨p, t5⟩, h5, h⟩ := h
    have := nextPos_length h1
    have := popNum_length h2
    have := popNum_length h3
    have := popNum_length h4
    have := nextPos_length h5
    simp only at h
    generalize (if a = true then p else p + s.cur) = q at h
    by_cases hq : s.cur = q
    · simp only [hq, if_true, pure, Except.pure, Except.ok.injEq, Prod.mk.injEq] at h
      obtain ⟨rfl, rfl, rfl⟩ := h
      exact ⟨fun _ => by (dsimp only at *); omega, by (dsimp only at *); omega, by simp, by simp⟩
    · by_cases hr : r.1 = 0 ∨ r.2 = 0
      · simp only [hq, if_false, hr, if_true, pure, Except.pure, Except.ok.injEq,
          Prod.mk.injEq] at h
        obtain ⟨rfl, rfl, rfl⟩ := h
        exact ⟨fun _ => by (dsimp only at *); omega, by (dsimp only at *); omega, by simp [SegOk], by simp⟩
      · simp only [hq, if_false, hr, bind_eq_ok, pure, Except.pure, Except.ok.injEq,
          Prod.mk.injEq] at h
        obtain ⟨v, hv, rfl, rfl, rfl⟩ := h
        refine ⟨fun _ => by (dsimp only at *); omega, by (dsimp only at *); omega, ?_, by simp⟩
        obtain ⟨n, hn⟩ := (ha s.cur r rot l sw q).1 v hv
        simp only [List.mem_singleton, forall_eq, SegOk, hn]
        refine ⟨by simp, ?_⟩
        right; right; right; right
        exact ⟨n, Or.inr rfl⟩

/-- A round takes a token, and what it gives is well formed. -/
theorem step_shape {arc : ArcFn K} (ha : ArcShape arc) {s s' : SvgState K}
    {ts rest : List (SvgTok K)} {out : List (Seg K)} (hs : s.command ≠ some .Z)
    (h : svgStep arc s ts = .ok (s', out, rest)) :
    rest.length < ts.length ∧ (∀ g ∈ out, SegOk g) ∧ s'.command ≠ some .Z := by
  unfold svgStep at h
  rw [bind_eq_ok] at h
  obtain ⟨⟨last, c, a, t1⟩, h1, h2⟩ := h
  simp only at h2
  have hb := body_shape ha h2
  refine ⟨?_, hb.2.2⟩
  unfold svgCommand at h1
  split at h1
  · simp only [Except.ok.injEq, Prod.mk.injEq] at h1
    obtain ⟨-, -, -, rfl⟩ := h1
    have := hb.2.1
    simp; omega
  · split at h1
    · simp at h1
    · rename_i c' hc
      simp only [Except.ok.injEq, Prod.mk.injEq] at h1
      obtain ⟨-, rfl, -, rfl⟩ := h1
      exact hb.1 (by rintro rfl; exact hs hc)

theorem loop_shape {arc : ArcFn K} (ha : ArcShape arc) : ∀ (n : Nat) (s : SvgState K)
    (ts : List (SvgTok K)) (out : List (Seg K)), s.command ≠ some .Z →
    svgLoop arc n s ts = .ok out → ∀ g ∈ out, SegOk g := by
  intro n
  induction n with
  | zero =>
    intro s ts out _ h
    cases ts <;> simp [svgLoop] at h
    subst h; simp
  | succ n ih =>
    intro s ts out hs h
    cases ts with
    | nil => simp [svgLoop] at h; subst h; simp
    | cons t ts =>
      simp only [svgLoop] at h
      cases h1 : svgStep arc s (t :: ts) with
      | error e => simp [h1] at h
      | ok r =>
        obtain ⟨s1, o1, r1⟩ := r
        simp only [h1] at h
        have hst := step_shape ha hs h1
        cases h2 : svgLoop arc n s1 r1 with
        | error e => simp [h2] at h
        | ok l =>
          simp only [h2, Except.ok.injEq] at h
          subst h
          intro g hg
          rcases List.mem_append.1 hg with hg | hg
          · exact hst.2.1 g hg
          · exact ih s1 r1 l hst.2.2 h2 g hg

/-- The same item, its coordinates absolute or relative as one likes, means the same. -/
theorem resolve_recase (pen : Pen K) (b : Bool) (i : Item K) :
    pen.resolve (pen.recase b i) = pen.resolve i := by
  have h : ∀ q, place b pen.cur (unplace b pen.cur q) = q := by
    intro q
    cases b <;> simp [place, unplace]
  cases i <;> simp only [Pen.recase, Pen.resolve, h]
  · cases b <;> simp
  · cases b <;> simp

theorem drawAll_recase (pts : ArcPts K) (is : List (Item K)) : ∀ (pen : Pen K) (bs : List Bool),
    pen.drawAll pts (pen.recaseAll bs is) = pen.drawAll pts is := by
  induction is with
  | nil => intro pen bs; rfl
  | cons i is ih =>
    intro pen bs
    simp only [Pen.recaseAll, Pen.drawAll, resolve_recase, ih]

theorem moved_recase (is : List (Item K)) : ∀ (pen : Pen K) (bs : List Bool) (inside : Bool),
    Moved inside is → Moved inside (pen.recaseAll bs is) := by
  induction is with
  | nil => intro pen bs inside h; exact h
  | cons i is ih =>
    intro pen bs inside h
    cases i <;> simp only [Moved, Pen.recaseAll, Pen.recase] at h ⊢ <;>
      first | exact ⟨h.1, ih _ _ _ h.2⟩ | exact ih _ _ _ h

/-- Not what stands for the bound having been reached. -/
def Sound {α : Type} (x : Except Err α) : Prop := x ≠ .error .recursion

omit [Field K] [LinearOrder K] in
theorem sound_ok {α : Type} (a : α) : Sound (Except.ok a : Except Err α) := by simp [Sound]

omit [Field K] [LinearOrder K] in
theorem sound_bind {α β : Type} {x : Except Err α} {f : α → Except Err β} (hx : Sound x)
    (hf : ∀ a, Sound (f a)) : Sound (x >>= f) := by
  cases x with
  | error e => simpa [Sound, bind, Except.bind] using hx
  | ok a => exact hf a

omit [Field K] [LinearOrder K] in
theorem sound_popNum (ts : List (SvgTok K)) : Sound (popNum ts) := by
  unfold popNum; split <;> simp [Sound]

omit [Field K] [LinearOrder K] in
theorem sound_nextPos (ts : List (SvgTok K)) : Sound (nextPos ts) :=
  sound_bind (sound_popNum _) fun _ => sound_bind (sound_popNum _) fun _ => sound_ok _

theorem sound_smooth (last : Option SvgCmd) (ks : List SvgCmd) (c : Pt K) (k : Option (Pt K)) :
    Sound (smoothControl last ks c k) := by
  unfold smoothControl
  split
  · simp [Sound]
  · split
    · split <;> simp [Sound]
    · simp [Sound]

theorem sound_body {arc : ArcFn K} (ha : ArcShape arc) (s : SvgState K) (last : Option SvgCmd) (c : SvgCmd) (a : Bool)
    (ts : List (SvgTok K)) : Sound (svgBody arc s last c a ts) := by
  cases c <;> simp only [svgBody]
  case Z => split <;> simp [Sound]
  case A =>
    refine sound_bind (sound_nextPos _) fun _ => sound_bind (sound_popNum _) fun _ =>
      sound_bind (sound_popNum _) fun _ => sound_bind (sound_popNum _) fun _ =>
      sound_bind (sound_nextPos _) fun _ => ?_
    repeat' split
    all_goals first
      | exact sound_ok _
      | exact sound_bind (ha _ _ _ _ _ _).2 fun _ => sound_ok _
  all_goals
    repeat' first
      | exact sound_popNum _
      | exact sound_nextPos _
      | exact sound_smooth _ _ _ _
      | exact sound_ok _
      | refine sound_bind ?_ fun _ => ?_

/-- No round raises what stands for the bound having been reached. -/
theorem step_error {arc : ArcFn K} (ha : ArcShape arc) {s : SvgState K} {ts : List (SvgTok K)} {e : Err}
    (h : svgStep arc s ts = .error e) : e ≠ .recursion := by
  have : Sound (svgStep arc s ts) := by
    refine sound_bind ?_ fun _ => sound_body ha _ _ _ _ _
    unfold svgCommand
    split
    · simp [Sound]
    · split <;> simp [Sound]
  rintro rfl
  exact this h

theorem loop_bound {arc : ArcFn K} (ha : ArcShape arc) : ∀ (n : Nat) (s : SvgState K)
    (ts : List (SvgTok K)), s.command ≠ some .Z → ts.length ≤ n →
    svgLoop arc n s ts ≠ .error .recursion := by
  intro n
  induction n with
  | zero =>
    intro s ts _ h
    cases ts <;> simp [svgLoop] at h ⊢
  | succ n ih =>
    intro s ts hs hn
    cases ts with
    | nil => simp [svgLoop]
    | cons t ts =>
      simp only [svgLoop]
      cases h1 : svgStep arc s (t :: ts) with
      | error e => simpa using step_error ha h1
      | ok r =>
        obtain ⟨s1, o1, r1⟩ := r
        have hst := step_shape ha hs h1
        have := ih s1 r1 hst.2.2 (by simp at hn hst; omega)
        simp only
        cases h2 : svgLoop arc n s1 r1 with
        | error e => simpa [h2] using this
        | ok l => simp

end

end Verif
