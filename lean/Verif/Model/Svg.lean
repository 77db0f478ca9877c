import Verif.Model.Py
import Mathlib.Algebra.Order.Field.Basic
/-
Outlines given as SVG paths (gsp/core/svg.py:278-521). The reading of the text is in SvgText.lean,
the arcs are in SvgArc.lean.

Simplifications: the numbers are those of an ordered field instead of floats; a complex number is a
pair; the points of an arc are a parameter.
-/

namespace Verif

/-- A point, or a complex number. -/
abbrev Pt (K : Type) := K × K

/-- The letters of commands, in upper case (svg.py:27-28). -/
inductive SvgCmd where
  | M | Z | L | H | V | C | S | Q | T | A
deriving DecidableEq, Repr

/-- The tokens: a command, with its case, or a number. -/
inductive SvgTok (K : Type) where
  | cmd (c : SvgCmd) (absolute : Bool)
  | num (x : K)
deriving DecidableEq

/-- The codes of matplotlib. -/
inductive PCode where
  | moveto | lineto | curve3 | curve4 | closepoly
deriving DecidableEq, Repr

/-- What the generator yields: codes and vertices. -/
abbrev Seg (K : Type) := List PCode × List (Pt K)

/-- The local variables of `_parse_path`; `none` for None, or not assigned yet (control2, control).
-/
structure SvgState (K : Type) where
  cur : Pt K
  start : Option (Pt K)
  command : Option SvgCmd
  absolute : Bool
  control2 : Option (Pt K)
  control : Option (Pt K)
deriving DecidableEq

section
variable {K : Type}

/-- `float(elements.pop())`. -/
def popNum : List (SvgTok K) → Except Err (K × List (SvgTok K))
  | [] => .error .indexError
  | .cmd _ _ :: _ => .error .valueError
  | .num x :: ts => .ok (x, ts)

/-- _next_pos (svg.py:274-275). -/
def nextPos (ts : List (SvgTok K)) : Except Err (Pt K × List (SvgTok K)) := do
  let (x, ts) ← popNum ts
  let (y, ts) ← popNum ts
  return ((x, y), ts)

/-- Step 1 of the loop (svg.py:294-309): last_command, command, absolute, and what is left. -/
def svgCommand (s : SvgState K) (ts : List (SvgTok K)) :
    Except Err (Option SvgCmd × SvgCmd × Bool × List (SvgTok K)) :=
  match ts with
  | .cmd c a :: ts => .ok (s.command, c, a, ts)
  | ts => match s.command with
    | none => .error .valueError
    | some c => .ok (some c, c, s.absolute, ts)

variable [Field K] [LinearOrder K]

/-- The points of an arc: current point, radii, rotation, large, sweep, end. -/
abbrev ArcFn (K : Type) := Pt K → Pt K → K → K → K → Pt K → Except Err (List (Pt K))

/-- `last_command not in 'CS'` and the like: None raises; otherwise the control point is the current
one or the reflection of the last (svg.py:398-408, 440-450). A name not assigned raises. -/
def smoothControl (last : Option SvgCmd) (kinds : List SvgCmd) (cur : Pt K)
    (control : Option (Pt K)) : Except Err (Pt K) :=
  match last with
  | none => .error .typeError
  | some c =>
    if c ∈ kinds then
      match control with
      | none => .error .nameError
      | some k => .ok (cur + cur - k)
    else .ok cur

/-- Step 2 of the loop (svg.py:313-485): the new state, what is yielded, and what is left. -/
def svgBody (arc : ArcFn K) (s : SvgState K) (last : Option SvgCmd) (c : SvgCmd) (a : Bool)
    (ts : List (SvgTok K)) : Except Err (SvgState K × List (Seg K) × List (SvgTok K)) :=
  let s := { s with command := some c, absolute := a }
  match c with
  | .M => do
    let (p, ts) ← nextPos ts
    let cur := if a then p else s.cur + p
    return ({ s with cur := cur, start := some cur, command := some .L },
      [([.moveto], [cur])], ts)
  | .Z =>
    match s.start with
    | none => .error .attributeError
    | some p =>
      .ok ({ s with cur := p, start := none, command := none },
        (if s.cur ≠ p then [([.lineto], [p])] else []) ++ [([.closepoly], [p])], ts)
  | .L => do
    let (p, ts) ← nextPos ts
    let p := if a then p else p + s.cur
    return ({ s with cur := p }, [([.lineto], [p])], ts)
  | .H => do
    let (x, ts) ← popNum ts
    let p := if a then (x, s.cur.2) else (x + s.cur.1, s.cur.2)
    return ({ s with cur := p }, [([.lineto], [p])], ts)
  | .V => do
    let (y, ts) ← popNum ts
    let p := if a then (s.cur.1, y) else (s.cur.1, y + s.cur.2)
    return ({ s with cur := p }, [([.lineto], [p])], ts)
  | .C => do
    let (c1, ts) ← nextPos ts
    let (c2, ts) ← nextPos ts
    let (p, ts) ← nextPos ts
    let c1 := if a then c1 else c1 + s.cur
    let c2 := if a then c2 else c2 + s.cur
    let p := if a then p else p + s.cur
    return ({ s with cur := p, control2 := some c2 },
      [([.curve4, .curve4, .curve4], [c1, c2, p])], ts)
  | .S => do
    let c1 ← smoothControl last [.C, .S] s.cur s.control2
    let (c2, ts) ← nextPos ts
    let (p, ts) ← nextPos ts
    let c2 := if a then c2 else c2 + s.cur
    let p := if a then p else p + s.cur
    return ({ s with cur := p, control2 := some c2 },
      [([.curve4, .curve4, .curve4], [c1, c2, p])], ts)
  | .Q => do
    let (k, ts) ← nextPos ts
    let (p, ts) ← nextPos ts
    let k := if a then k else k + s.cur
    let p := if a then p else p + s.cur
    return ({ s with cur := p, control := some k }, [([.curve3, .curve3], [k, p])], ts)
  | .T => do
    let k ← smoothControl last [.Q, .T] s.cur s.control
    let (p, ts) ← nextPos ts
    let p := if a then p else p + s.cur
    return ({ s with cur := p, control := some k }, [([.curve3, .curve3], [k, p])], ts)
  | .A => do
    let (r, ts) ← nextPos ts
    let (rotation, ts) ← popNum ts
    let (large, ts) ← popNum ts
    let (sweep, ts) ← popNum ts
    let (p, ts) ← nextPos ts
    let p := if a then p else p + s.cur
    if s.cur = p then return (s, [], ts)
    else if r.1 = 0 ∨ r.2 = 0 then return ({ s with cur := p }, [([.lineto], [p])], ts)
    else
      let verts ← arc s.cur r rotation large sweep p
      return ({ s with cur := p },
        [(.lineto :: List.replicate (verts.length - 1) .curve4, verts)], ts)

/-- One round of the loop. -/
def svgStep (arc : ArcFn K) (s : SvgState K) (ts : List (SvgTok K)) :
    Except Err (SvgState K × List (Seg K) × List (SvgTok K)) := do
  let (last, c, a, ts) ← svgCommand s ts
  svgBody arc s last c a ts

/-- The loop, with a bound on the number of rounds. -/
def svgLoop (arc : ArcFn K) : Nat → SvgState K → List (SvgTok K) → Except Err (List (Seg K))
  | _, _, [] => .ok []
  | 0, _, _ :: _ => .error .recursion
  | n + 1, s, t :: ts =>
    match svgStep arc s (t :: ts) with
    | .error e => .error e
    | .ok (s, out, rest) =>
      match svgLoop arc n s rest with
      | .error e => .error e
      | .ok l => .ok (out ++ l)

/-- _parse_path (svg.py:278-485). Every round takes a token, so that the bound is not reached. -/
def parsePath (arc : ArcFn K) (pos : Pt K) (ts : List (SvgTok K)) : Except Err (List (Seg K)) :=
  svgLoop arc ts.length ⟨pos, none, none, true, none, none⟩ ts

/-- All numbers of an array of points. -/
def coords (verts : List (Pt K)) : List K := verts.flatMap (fun p => [p.1, p.2])

/-- The scaling of svg_to_path (svg.py:518-520). The minimum of nothing raises; `none` stands for an
array of nan, when all numbers are equal. -/
def svgScale (verts : List (Pt K)) : Except Err (Option (List (Pt K))) :=
  match coords verts with
  | [] => .error .valueError
  | c :: cs =>
    let lo := cs.foldl min c
    let hi := cs.foldl max c
    if hi - lo = 0 then .ok none
    else .ok (some (verts.map (fun p =>
      ((p.1 - lo) / (hi - lo) - 1 / 2, -((p.2 - lo) / (hi - lo) - 1 / 2)))))

/-- svg_to_path (svg.py:488-521) from the tokens: codes and vertices. -/
def svgToPath (arc : ArcFn K) (pos : Pt K) (ts : List (SvgTok K)) :
    Except Err (List PCode × Option (List (Pt K))) := do
  let segs ← parsePath arc pos ts
  let verts ← svgScale (segs.flatMap (·.2))
  return (segs.flatMap (·.1), verts)

end

end Verif
