import Verif.Spec.Collide
import Verif.Spec.Polygon

/-! # Specification for C32: the sides of a shape that face a direction -/

namespace CP
open GoFloat

/-- The constant `1e-15` of the code. -/
noncomputable def tiny : ℝ := 1 / 10 ^ 15

/-- How wide the side from `p` to `q` is seen along `n` (positive if it is seen from outside, for counter-clockwise order), and
how much it rises along `n`. -/
noncomputable def widthAlong (p q n : Vec ℝ) : ℝ := (q.sub p).rperp.dot n
noncomputable def riseAlong (p q n : Vec ℝ) : ℝ := |(q.sub p).dot n|

/-- The outward normal of a side as the library computes it (its length is `l / (l + 1e-15)` for a side of length `l`). -/
noncomputable def outward (e : Vec ℝ × Vec ℝ) : Vec ℝ := (e.2.sub e.1).rperp.normalize

/-- `e` is a side at a foremost vertex along `n`, and of the sides at this vertex the one whose normal points most towards `n`.
(A segment counts as a polygon with two vertices, whose sides are its two faces.) -/
def Facing (l : List (Vec ℝ)) (n : Vec ℝ) (e : Vec ℝ × Vec ℝ) : Prop :=
  e ∈ edges l ∧ ∃ v, (v = e.1 ∨ v = e.2) ∧ (∀ u ∈ l, u.dot n ≤ v.dot n) ∧
    ∀ f ∈ edges l, (f.1 = v ∨ f.2 = v) → (outward f).dot n ≤ (outward e).dot n

/-- Neighbouring sides do not point in nearly the same direction: the cosine of the angle between them is less than
`l / (l + 1e-15)` for the length `l` of one of them. -/
def NotFlat (l : List (Vec ℝ)) : Prop := ∀ e ∈ edges l, ∀ f ∈ edges l, (e.2 = f.1 ∨ f.2 = e.1) →
  (e.2.sub e.1).dot (f.2.sub f.1) * ((e.2.sub e.1).length + tiny) < (e.2.sub e.1).dot (e.2.sub e.1) * (f.2.sub f.1).length

namespace Coll

/-- A segment whose normal is the one `NewSegment` computes (on the right of the way from the first to the second end), or a
strictly convex polygon without nearly flat corners, with the planes the library computes. -/
def Sided : Cls ℝ → Prop
  | .circle _ => False
  | .seg g => ∃ k > 0, g.tn = (g.tb.sub g.ta).rperp.mult k
  | .poly g => ∃ l, g.dst = (edges l).map (fun e => ⟨e.2, outward e⟩) ∧ StrictlyConvex l ∧ NotFlat l

/-- No neighbours were set (`SetNeighbors`): no collision of the ends of a segment is suppressed. -/
def FreeEnds : Cls ℝ → Prop
  | .seg g => g.aTangent = ⟨0, 0⟩ ∧ g.bTangent = ⟨0, 0⟩
  | _ => True

end Coll
end CP
