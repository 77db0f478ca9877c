import Verif.Model.Svg
/-
SVG paths as a language: what can be written (items), how it is written down (tokens), and what it
means, after the specification of SVG: coordinates are first made absolute, short forms are
written out, and then each item is drawn.
-/

namespace Verif

/-- What one command of a path says; `a` tells whether its coordinates are absolute. -/
inductive Item (K : Type) where
  | moveTo (a : Bool) (p : Pt K)
  | close
  | lineTo (a : Bool) (p : Pt K)
  | horTo (a : Bool) (x : K)
  | verTo (a : Bool) (y : K)
  | cubic (a : Bool) (c1 c2 p : Pt K)
  | smooth (a : Bool) (c2 p : Pt K)
  | quad (a : Bool) (c p : Pt K)
  | smoothQuad (a : Bool) (p : Pt K)
  | arcTo (a : Bool) (r : Pt K) (rotation large sweep : K) (p : Pt K)
deriving DecidableEq

section
variable {K : Type}

/-- Tokens of a point. -/
def ptToks (p : Pt K) : List (SvgTok K) := [.num p.1, .num p.2]

/-- The letter of an item. -/
def Item.letter : Item K → SvgTok K
  | .moveTo a _ => .cmd .M a
  | .close => .cmd .Z true
  | .lineTo a _ => .cmd .L a
  | .horTo a _ => .cmd .H a
  | .verTo a _ => .cmd .V a
  | .cubic a _ _ _ => .cmd .C a
  | .smooth a _ _ => .cmd .S a
  | .quad a _ _ => .cmd .Q a
  | .smoothQuad a _ => .cmd .T a
  | .arcTo a _ _ _ _ _ => .cmd .A a

/-- The numbers of an item. -/
def Item.numbers : Item K → List (SvgTok K)
  | .moveTo _ p => ptToks p
  | .close => []
  | .lineTo _ p => ptToks p
  | .horTo _ x => [.num x]
  | .verTo _ y => [.num y]
  | .cubic _ c1 c2 p => ptToks c1 ++ (ptToks c2 ++ ptToks p)
  | .smooth _ c2 p => ptToks c2 ++ ptToks p
  | .quad _ c p => ptToks c ++ ptToks p
  | .smoothQuad _ p => ptToks p
  | .arcTo _ r rot l s p => ptToks r ++ (.num rot :: .num l :: .num s :: ptToks p)

/-- The letter need not be written when it is that of the item before; after a move, it is that of a
line. -/
def Item.mayFollow (prev item : Item K) : Bool :=
  match prev, item with
  | .moveTo a _, .lineTo b _ => a == b
  | .lineTo a _, .lineTo b _ => a == b
  | .horTo a _, .horTo b _ => a == b
  | .verTo a _, .verTo b _ => a == b
  | .cubic a _ _ _, .cubic b _ _ _ => a == b
  | .smooth a _ _, .smooth b _ _ => a == b
  | .quad a _ _, .quad b _ _ => a == b
  | .smoothQuad a _, .smoothQuad b _ => a == b
  | .arcTo a _ _ _ _ _, .arcTo b _ _ _ _ _ => a == b
  | _, _ => false

/-- How a path is written: each item with its letter, or without where that is allowed. -/
def WrittenAs : Option (Item K) → List (Item K) → List (SvgTok K) → Prop
  | _, [], ts => ts = []
  | prev, i :: is, ts =>
    ∃ rest, WrittenAs (some i) is rest ∧
      (ts = i.letter :: (i.numbers ++ rest) ∨
        (∃ p ∈ prev, p.mayFollow i = true) ∧ ts = i.numbers ++ rest)

/-- Every subpath begins with a move. `inside` tells whether a subpath has begun. -/
def Moved : Bool → List (Item K) → Prop
  | _, [] => True
  | _, .moveTo _ _ :: is => Moved true is
  | inside, .close :: is => inside = true ∧ Moved false is
  | inside, _ :: is => inside = true ∧ Moved true is

/-- All letters written. -/
def writeOut (is : List (Item K)) : List (SvgTok K) := is.flatMap (fun i => i.letter :: i.numbers)

theorem writeOut_writtenAs : ∀ (is : List (Item K)) (prev : Option (Item K)),
    WrittenAs prev is (writeOut is)
  | [], _ => rfl
  | i :: is, _ => ⟨writeOut is, writeOut_writtenAs is _, Or.inl (by simp [writeOut])⟩

/-- The absolute, written out forms. -/
inductive AItem (K : Type) where
  | moveTo (p : Pt K)
  | close
  | lineTo (p : Pt K)
  | cubic (c1 c2 p : Pt K)
  | quad (c p : Pt K)
  | arcTo (r : Pt K) (rotation large sweep : K) (p : Pt K)

/-- Where drawing has come to: the current point, the start of the subpath, and the last control
point if the item before was a cubic, or a quadratic, curve. -/
structure Pen (K : Type) where
  cur : Pt K
  start : Pt K
  cubicCtl : Option (Pt K)
  quadCtl : Option (Pt K)

variable [Field K] [LinearOrder K]

/-- A point as given, absolute or relative to the current one. -/
def place (a : Bool) (cur p : Pt K) : Pt K := if a then p else cur + p

/-- The reflection of a control point, if there is one, or else the current point. -/
def reflect (cur : Pt K) : Option (Pt K) → Pt K
  | none => cur
  | some c => (2 * cur.1 - c.1, 2 * cur.2 - c.2)

/-- The absolute form of an item. -/
def Pen.resolve (pen : Pen K) : Item K → AItem K
  | .moveTo a p => .moveTo (place a pen.cur p)
  | .close => .close
  | .lineTo a p => .lineTo (place a pen.cur p)
  | .horTo a x => .lineTo (if a then x else pen.cur.1 + x, pen.cur.2)
  | .verTo a y => .lineTo (pen.cur.1, if a then y else pen.cur.2 + y)
  | .cubic a c1 c2 p => .cubic (place a pen.cur c1) (place a pen.cur c2) (place a pen.cur p)
  | .smooth a c2 p =>
    .cubic (reflect pen.cur pen.cubicCtl) (place a pen.cur c2) (place a pen.cur p)
  | .quad a c p => .quad (place a pen.cur c) (place a pen.cur p)
  | .smoothQuad a p => .quad (reflect pen.cur pen.quadCtl) (place a pen.cur p)
  | .arcTo a r rot l s p => .arcTo r rot l s (place a pen.cur p)

/-- Where drawing an item ends. -/
def Pen.after (pen : Pen K) : AItem K → Pen K
  | .moveTo p => ⟨p, p, none, none⟩
  | .close => ⟨pen.start, pen.start, none, none⟩
  | .lineTo p => ⟨p, pen.start, none, none⟩
  | .cubic _ c2 p => ⟨p, pen.start, some c2, none⟩
  | .quad c p => ⟨p, pen.start, none, some c⟩
  | .arcTo _ _ _ _ p => ⟨p, pen.start, none, none⟩

/-- The points an arc should have: current point, radii, rotation, large, sweep, end. -/
abbrev ArcPts (K : Type) := Pt K → Pt K → K → K → K → Pt K → List (Pt K)

/-- Arcs between distinct points and with radii are drawn with those points. -/
def ArcDraws (arc : ArcFn K) (pts : ArcPts K) : Prop :=
  ∀ p r rot l s q, p ≠ q → r.1 ≠ 0 → r.2 ≠ 0 → arc p r rot l s q = .ok (pts p r rot l s q)

/-- What drawing an item gives. -/
def Pen.draw (arc : ArcPts K) (pen : Pen K) : AItem K → List (Seg K)
  | .moveTo p => [([.moveto], [p])]
  | .close =>
    (if pen.cur = pen.start then [] else [([.lineto], [pen.start])]) ++
      [([.closepoly], [pen.start])]
  | .lineTo p => [([.lineto], [p])]
  | .cubic c1 c2 p => [([.curve4, .curve4, .curve4], [c1, c2, p])]
  | .quad c p => [([.curve3, .curve3], [c, p])]
  | .arcTo r rot l s p =>
    if pen.cur = p then []
    else if r.1 = 0 ∨ r.2 = 0 then [([.lineto], [p])]
    else
      let verts := arc pen.cur r rot l s p
      [(.lineto :: List.replicate (verts.length - 1) .curve4, verts)]

/-- What a path means. -/
def Pen.drawAll (arc : ArcPts K) : Pen K → List (Item K) → List (Seg K)
  | _, [] => []
  | pen, i :: is =>
    pen.draw arc (pen.resolve i) ++ Pen.drawAll arc (pen.after (pen.resolve i)) is

/-- The numbers to write for a point, in absolute or relative coordinates. -/
def unplace (b : Bool) (cur q : Pt K) : Pt K := if b then q else q - cur

/-- The same item with absolute (`b`) or relative coordinates. -/
def Pen.recase (pen : Pen K) (b : Bool) : Item K → Item K
  | .moveTo a p => .moveTo b (unplace b pen.cur (place a pen.cur p))
  | .close => .close
  | .lineTo a p => .lineTo b (unplace b pen.cur (place a pen.cur p))
  | .horTo a x =>
    let x := if a then x else pen.cur.1 + x
    .horTo b (if b then x else x - pen.cur.1)
  | .verTo a y =>
    let y := if a then y else pen.cur.2 + y
    .verTo b (if b then y else y - pen.cur.2)
  | .cubic a c1 c2 p =>
    .cubic b (unplace b pen.cur (place a pen.cur c1)) (unplace b pen.cur (place a pen.cur c2))
      (unplace b pen.cur (place a pen.cur p))
  | .smooth a c2 p =>
    .smooth b (unplace b pen.cur (place a pen.cur c2)) (unplace b pen.cur (place a pen.cur p))
  | .quad a c p =>
    .quad b (unplace b pen.cur (place a pen.cur c)) (unplace b pen.cur (place a pen.cur p))
  | .smoothQuad a p => .smoothQuad b (unplace b pen.cur (place a pen.cur p))
  | .arcTo a r rot l s p => .arcTo b r rot l s (unplace b pen.cur (place a pen.cur p))

/-- The same path, each item with absolute or relative coordinates as `bs` says. -/
def Pen.recaseAll : Pen K → List Bool → List (Item K) → List (Item K)
  | _, _, [] => []
  | pen, bs, i :: is =>
    pen.recase (bs.headD true) i :: Pen.recaseAll (pen.after (pen.resolve i)) bs.tail is

/-- The points of an arc are the ends of a number of cubic curves. -/
def ArcShape (arc : ArcFn K) : Prop :=
  ∀ p r rot l s q, (∀ v, arc p r rot l s q = .ok v → ∃ n, v.length = 3 * n + 1) ∧
    arc p r rot l s q ≠ .error .recursion

/-- The codes and vertices of one drawing command of matplotlib: as many codes as vertices, and for
each kind the number it requires; an arc is a line to its beginning and a number of cubic curves.
-/
def SegOk (s : Seg K) : Prop :=
  s.1.length = s.2.length ∧
    (s.1 = [.moveto] ∨ s.1 = [.lineto] ∨ s.1 = [.closepoly] ∨ s.1 = [.curve3, .curve3] ∨
      ∃ n, s.1 = List.replicate (3 * n) .curve4 ∨ s.1 = .lineto :: List.replicate (3 * n) .curve4)

end

end Verif
