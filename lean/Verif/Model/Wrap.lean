import Verif.Model.BB
import Mathlib.Analysis.SpecialFunctions.Complex.Arg

/-! # Angles of vectors and wrapped coordinates -/

namespace CP
open GoFloat
variable {F : Type} [GoFloat F]

/-- Go's `math.Mod` as used by /repo/bb.go:141,150: the remainder with the sign of `x`. Simplification: Go's is exact, here it is calculated (the same in exact arithmetic);
`y = 0` (NaN in Go) is excluded by hypotheses. -/
def fmod (x y : F) : F := x - ofInt (trunc (x / y)) * y

/-- /repo/bb.go:139-159 `WrapVect`. -/
def BB.wrapVect (bb : BB F) (v : Vec F) : Vec F :=
  let dx := fabs (bb.r - bb.l)
  let modx := fmod (v.x - bb.l) dx
  let x := if 0 < modx then modx else modx + dx
  let dy := fabs (bb.t - bb.b)
  let mody := fmod (v.y - bb.b) dy
  let y := if 0 < mody then mody else mody + dy
  ⟨x + bb.l, y + bb.b⟩

/-- /repo/vector.go:64-66 `ToAngle`, with `math.Atan2` in exact arithmetic (the argument of the complex number `x + iy`; 0 for the zero vector). -/
noncomputable def Vec.toAngle (v : Vec ℝ) : ℝ := Complex.arg ⟨v.x, v.y⟩

end CP
