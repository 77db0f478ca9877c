import Verif.Model.SvgText
/-
The outlines of markers (gsp/core/types.py:138-205).

Simplifications: the table is made afresh at each call; the program keeps it.
-/

namespace Verif

/-- Marker (types.py:138-149). -/
inductive MarkerType where
  | point | triangle | square | minus | plus | cross | star | club | heart | spade | diamond | arrow
deriving DecidableEq, Repr

/-- The descriptions in Marker.path (types.py:158-203). -/
def markerText : MarkerType → String
  | .point => "M12,2A10,10 0 0,0 2,12A10,10 0 0,0 12,22A10,10 0 0,0 22,12A10,10 0 0,0 12,2Z"
  | .triangle => "M1,21H23L12,2Z"
  | .square => "M3,3V21H21V3"
  | .minus => "M20 14H4V10H20"
  | .plus => "M20 14H14V20H10V14H4V10H10V4H14V10H20V14Z"
  | .cross => "M20 6.91L17.09 4L12 9.09L6.91 4L4 6.91L9.09 12L4 17.09L6.91 20L12 14.91L17.09 20L20 17.09L14.91 12L20 6.91Z"
  | .star => "M12,17.27L18.18,21L16.54,13.97L22,9.24L14.81,8.62L12,2L9.19,8.62L2,9.24L7.45,13.97L5.82,21L12,17.27Z"
  | .club => "M12,2C14.3,2 16.3,4 16.3,6.2C16.21,8.77 14.34,9.83 14.04,10C15.04,9.5 16.5,9.5 16.5,9.5C19,9.5 21,11.3 21,13.8C21,16.3 19,18 16.5,18C16.5,18 15,18 13,17C13,17 12.7,19 15,22H9C11.3,19 11,17 11,17C9,18 7.5,18 7.5,18C5,18 3,16.3 3,13.8C3,11.3 5,9.5 7.5,9.5C7.5,9.5 8.96,9.5 9.96,10C9.66,9.83 7.79,8.77 7.7,6.2C7.7,4 9.7,2 12,2Z"
  | .heart => "M12,21.35L10.55,20.03C5.4,15.36 2,12.27 2,8.5C2,5.41 4.42,3 7.5,3C9.24,3 10.91,3.81 12,5.08C13.09,3.81 14.76,3 16.5,3C19.58,3 22,5.41 22,8.5C22,12.27 18.6,15.36 13.45,20.03L12,21.35Z"
  | .spade => "M12,2C9,7 4,9 4,14C4,16 6,18 8,18C9,18 10,18 11,17C11,17 11.32,19 9,22H15C13,19 13,17 13,17C14,18 15,18 16,18C18,18 20,16 20,14C20,9 15,7 12,2Z"
  | .diamond => "M19,12L12,22L5,12L12,2"
  | .arrow => "M14,20H10V11L6.5,14.5L4.08,12.08L12,4.16L19.92,12.08L17.5,14.5L14,11V20Z"

/-- Its tokens. -/
def markerToks (m : MarkerType) : List (SvgTok ℚ) := tokenizePath (markerText m).toList

/-- A token over another field. -/
def SvgTok.map {K L : Type} (f : K → L) : SvgTok K → SvgTok L
  | .cmd c a => .cmd c a
  | .num x => .num (f x)

/-- `Marker.path(m)` (types.py:153-205), with the points of arcs given by `arc`. -/
def markerPath {K : Type} [Field K] [LinearOrder K] (arc : ArcFn K) (m : MarkerType) :
    Except Err (List PCode × Option (List (Pt K))) :=
  svgToPath arc (0, 0) ((markerToks m).map (SvgTok.map (fun q : ℚ => (q : K))))

end Verif
