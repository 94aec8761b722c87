import Mathlib.MeasureTheory.Integral.Bochner.Set
import Mathlib.MeasureTheory.Measure.Haar.OfBasis
import Mathlib.MeasureTheory.Measure.Lebesgue.Basic
import Verif.Spec.Polygon

/-! # Specification: area, centre of gravity and moment of inertia of a plane region

Integrals over sets of points of the plane (Lebesgue measure on `ℝ × ℝ`). -/

namespace CP
open MeasureTheory

/-- A set of points as a set of pairs of coordinates. -/
def Pts.region (S : Pts) : Set (ℝ × ℝ) := {p | S ⟨p.1, p.2⟩}

/-- The area. -/
noncomputable def regionArea (S : Pts) : ℝ := ∫ _ in S.region, (1 : ℝ)

/-- The centre of gravity. -/
noncomputable def regionCentre (S : Pts) : Vec ℝ := ⟨(∫ p in S.region, p.1) / regionArea S, (∫ p in S.region, p.2) / regionArea S⟩

/-- The moment of inertia about the origin of the mass `m` spread evenly over the region: the mean of the squared distance from
the origin times the mass. -/
noncomputable def regionMoment (m : ℝ) (S : Pts) : ℝ := m * ((∫ p in S.region, (p.1 ^ 2 + p.2 ^ 2)) / regionArea S)

/-- The set moved by `o`. -/
def Pts.shift (S : Pts) (o : Vec ℝ) : Pts := fun p => S ⟨p.x - o.x, p.y - o.y⟩

/-- The vertices of a polygon by their number, as the functions on polygons take them. -/
noncomputable def vert (l : List (Vec ℝ)) (i : Nat) : Vec ℝ := l.getD i ⟨0, 0⟩

/-- The ring between two circles about `c`, given by their radii in either order (a disc if one of them is 0). -/
def Ring (c : Vec ℝ) (r1 r2 : ℝ) : Pts := fun p => min r1 r2 ≤ p.distance c ∧ p.distance c ≤ max r1 r2

/-- The rectangle around the segment from `a` to `b` that reaches `r` beyond its ends and to both sides: the points
`(a + b) / 2 + s * (b - a) / |b - a| + t * n` with `|s| ≤ |b - a| / 2 + r` and `|t| ≤ r`, where `n` is a unit vector
perpendicular to `b - a`. -/
def RodBox (a b : Vec ℝ) (r : ℝ) : Pts := fun p => ∃ s t : ℝ, |s| ≤ a.distance b / 2 + r ∧ |t| ≤ r ∧
  p = ⟨(a.x + b.x) / 2 + (s * (b.x - a.x) - t * (b.y - a.y)) / a.distance b,
       (a.y + b.y) / 2 + (s * (b.y - a.y) + t * (b.x - a.x)) / a.distance b⟩

end CP
