import Verif.Model.Values
/-
The evaluation of measures with floating point numbers (gsp/transform/measure.py): as in Model/Values.lean, but
every product, difference and quotient is rounded by `fl`, and so are the constants 2.54 and 0.1. (numpy computes
with 64 bits, since the scale is an array of such numbers.)
-/

namespace Verif

/-- measure.py:56-72, with rounding: the sizes, and the extents of the limits. -/
def MVars.extentRounded (fl : ℚ → ℚ) (m : MVars) : Option (ℚ × ℚ × ℚ × ℚ) :=
  match m.dpi with
  | some _ => some (1, 1, 1, 1)
  | none => match m.viewport with
    | some v => some (v.width, v.height, fl (v.xmax - v.xmin), fl (v.ymax - v.ymin))
    | none => m.canvas.map (fun c => (c.width, c.height, 1, 1))

/-- measure.py:74-89, with rounding. -/
def MVars.scaleRounded (fl : ℚ → ℚ) (m : MVars) : Except Err (ℚ × ℚ × ℚ) :=
  match m.extentRounded fl with
  | none => .error .valueError
  | some (w0, h0, ex, ey) =>
    let w := (m.size.getD (w0, h0)).1
    let h := (m.size.getD (w0, h0)).2
    if w = 0 ∨ h = 0 then .error .zeroDivision
    else .ok (fl (ex * fl (1 / w)), fl (ey * fl (1 / h)), 0)

/-- A function of every number. -/
def TVal.mapNums (f : ℚ → ℚ) : TVal → TVal
  | .num x => .num (f x)
  | .vec xs => .vec (xs.map f)
  | .mat k rows => .mat k (rows.map (List.map f))
  | .recs cols => .recs cols

/-- The factor of a unit (measure.py:153, 169, 185, 201, 217, 233), with rounding; that of pixels is 1 and is not
multiplied. -/
def MUnit.factorRounded (fl : ℚ → ℚ) (dpi : ℚ) : MUnit → ℚ
  | .pixel => 1
  | .inch => dpi
  | .point => fl (dpi / 72)
  | .centimeter => fl (dpi / fl (254 / 100))
  | .millimeter => fl (fl (fl (1 / 10) * dpi) / fl (254 / 100))
  | .meter => fl (fl (1000 * dpi) / fl (254 / 100))
  | .kilometer => fl (fl (100000 * dpi) / fl (254 / 100))

/-- The evaluation of a measure (measure.py:51-96, 131-233), with rounding. -/
def measureRounded (fl : ℚ → ℚ) (m : MVars) (u : MUnit) (v : TVal) : Except Err TVal :=
  match m.scaleRounded fl with
  | .error e => .error e
  | .ok s => match scaleVal s v with
    | .error e => .error e
    | .ok r => match u, m.resolution with
      | .pixel, _ => .ok (r.mapNums fl)
      | _, none => .error .valueError
      | u, some d => .ok (((r.mapNums fl).scaleBy (u.factorRounded fl d)).mapNums fl)

end Verif
