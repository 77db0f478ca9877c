import Verif.Model.FrontFace
import Verif.Spec.Clip
/-
Which side of a face is seen.
-/

namespace Verif

/-- The outside of the triangle `a b c`, from which its corners are seen counter-clockwise, is the one towards the
eye at the origin: the outward normal points to the side of the plane where the eye is. -/
def TowardsEye (a b c : V3) : Prop := 0 < ((b.sub a).cross (c.sub a)).dot ((⟨0, 0, 0⟩ : V3).sub a)

end Verif
