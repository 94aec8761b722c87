import Verif.Model.March

/-! # Specification for C35 -/

namespace CP
namespace March
open GoFloat PL
variable {F : Type} [GoFloat F]

/-- The points sampled, in order. -/
def samplesOf (log : List (Ev F)) : List (Vec F) :=
  log.filterMap fun e => match e with | .sample p => some p | .seg _ _ => none

/-- The directed segments given to the segment function, in order. -/
def segsOf (log : List (Ev F)) : List (Vec F × Vec F) :=
  log.filterMap fun e => match e with | .sample _ => none | .seg v0 v1 => some (v0, v1)

/-- The columns and rows of the grid, as the code computes them. -/
def gridX (bb : BB F) (xs : Nat) (i : Nat) : F := lerp bb.l bb.r (ofInt i * (1 / ofInt (xs - 1 : Int)))
def gridY (bb : BB F) (ys : Nat) (j : Nat) : F := lerp bb.b bb.t (ofInt j * (1 / ofInt (ys - 1 : Int)))

/-- The point of column `i` and row `j`; the code writes the first column (but for its first point) and the first row
directly as sides of the box. -/
def gridPt (bb : BB F) (xs ys : Nat) (i j : Nat) : Vec F :=
  ⟨if i = 0 ∧ j ≠ 0 then bb.l else gridX bb xs i, if j = 0 then bb.b else gridY bb ys j⟩

/-- The value the sample function returned for the point of column `i` and row `j`, in call number `j * xs + i`. -/
def value (bb : BB F) (xs ys : Nat) (sample : Nat → Vec F → F) (i j : Nat) : F :=
  sample (j * xs + i) (gridPt bb xs ys i j)

end March
end CP
