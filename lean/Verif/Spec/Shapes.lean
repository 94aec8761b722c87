import Verif.Model.Shapes
import Verif.Props.Geometry

/-! # Shapes as sets of points (specification for C29, C30, C32, C33) -/

namespace CP

/-- A set of points of the plane. -/
abbrev Pts := Vec ℝ → Prop

/-- Rotation and translation, without scaling or reflection (the transform of every body, see C13). -/
def Transform.IsRigid (t : Transform ℝ) : Prop := t.a * t.a + t.b * t.b = 1 ∧ t.c = -t.b ∧ t.d = t.a

/-- The straight segment from `a` to `b`. -/
def OnSegment (a b : Vec ℝ) : Pts := fun p => ∃ s : ℝ, 0 ≤ s ∧ s ≤ 1 ∧ p = ⟨a.x + s * (b.x - a.x), a.y + s * (b.y - a.y)⟩

/-- The convex hull of a set of points: the least set that contains them and, with any two points, the segment
between them. -/
inductive Hull (S : Pts) : Pts
  | pt {p} : S p → Hull S p
  | mix {p q x} : Hull S p → Hull S q → OnSegment p q x → Hull S x

/-- All points within the distance `r` of a set. -/
def Thick (S : Pts) (r : ℝ) : Pts := fun p => ∃ q, S q ∧ p.distance q ≤ r

/-- The points of the shapes, in the coordinates of their body. -/
def Circle.pts (s : Circle ℝ) : Pts := Thick (fun p => p = s.c) s.r
def Segment.pts (s : Segment ℝ) : Pts := Thick (OnSegment s.a s.b) s.r
def Poly.pts (s : Poly ℝ) : Pts := Thick (Hull fun p => ∃ pl ∈ s.src, p = pl.v0) s.r

/-- The image of a set under a transform. -/
def Transform.image (t : Transform ℝ) (S : Pts) : Pts := fun w => ∃ p, S p ∧ w = t.point p

/-- `bb` contains the set and each of its sides touches the set. -/
structure TightBox (S : Pts) (bb : BB ℝ) : Prop where
  contains : ∀ p, S p → bb.Mem p
  left : ∃ p, S p ∧ p.x = bb.l
  right : ∃ p, S p ∧ p.x = bb.r
  bottom : ∃ p, S p ∧ p.y = bb.b
  top : ∃ p, S p ∧ p.y = bb.t

/-- What a point query should answer: `distance` is the distance to the set if the point is outside of it and minus the
distance to its complement if it is inside; `point` is a point of the surface at this distance. -/
structure TrueDistance (S : Pts) (p : Vec ℝ) (i : PointInfo ℝ) : Prop where
  outside : ∀ q, S q → i.distance ≤ p.distance q
  inside : ∀ q, ¬ S q → -i.distance ≤ p.distance q
  surface : S i.point ∧ ∀ ε > 0, ∃ q, ¬ S q ∧ q.distance i.point ≤ ε
  at_distance : p.distance i.point = |i.distance|

/-- A convex set. -/
def IsConvex (S : Pts) : Prop := ∀ p q x, S p → S q → OnSegment p q x → S x

end CP
