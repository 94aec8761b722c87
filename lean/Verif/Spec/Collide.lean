import Verif.Model.Collide
import Verif.Spec.Shapes

/-! # Specification for C32 and C33: what a shape occupies, and the distance of two shapes -/

namespace CP
namespace Coll

/-- The points between which a shape is spanned, in world coordinates (after the last update). -/
def Cls.verts : Cls ℝ → List (Vec ℝ)
  | .circle s => [s.tc]
  | .seg s => [s.ta, s.tb]
  | .poly s => s.dst.map Plane.v0

def Cls.radius : Cls ℝ → ℝ
  | .circle s => s.r
  | .seg s => s.r
  | .poly s => s.r

/-- The shape without its radius: the convex hull of these points. -/
def Cls.core (s : Cls ℝ) : Pts := Hull fun p => p ∈ s.verts

/-- The shape: everything within the radius of the core (compare `Circle.pts`, `Segment.pts`, `Poly.pts`). -/
def Cls.pts (s : Cls ℝ) : Pts := Thick s.core s.radius

/-- A polygon has between 1 and 256 vertices (an index is stored in 8 bits), and no coordinate is beyond `2 ^ 500`. -/
structure Cls.Fine (s : Cls ℝ) : Prop where
  pos : s.verts ≠ []
  few : s.verts.length ≤ 256
  bounded : ∀ v ∈ s.verts, |v.x| ≤ 2 ^ 500 ∧ |v.y| ≤ 2 ^ 500

/-- `c` is a right answer for two shapes without a common point: `d` is the distance of their cores (up to the constant
`1e-15` of `Normalize`: `l` is the length of an edge), no two of their points are closer, and the direction `n` separates
the cores and leads from the closest point of the first to that of the second, which are extreme points along `n`. -/
structure Apart (s1 s2 : Cls ℝ) (c : Closest ℝ) : Prop where
  le : ∀ a b, s1.core a → s2.core b → c.d ≤ a.distance b
  axis : ∀ a b, s1.core a → s2.core b → 0 < c.n.dot (b.sub a)
  attained : c.a.distance c.b = c.d ∨ ∃ l > 0, c.a.distance c.b * l = c.d * (l + 1 / 10 ^ 15)
  face : ∀ a b, s1.core a → s2.core b → c.n.dot (c.b.sub c.a) ≤ c.n.dot (b.sub a)
  along : ∃ k > 0, c.b.sub c.a = c.n.mult k

/-- `c` is a right answer for two overlapping shapes: the cores have a common point, and moving the second shape by the
depth `-d` along `n` is just enough to bring it, along `n`, behind the first. -/
structure Overlap (s1 s2 : Cls ℝ) (c : Closest ℝ) : Prop where
  common : ∃ q, s1.core q ∧ s2.core q
  nonpos : c.d ≤ 0
  depth : ∀ a b, s1.core a → s2.core b → c.d ≤ c.n.dot (b.sub a)
  attained : c.n.dot (c.b.sub c.a) = c.d

end Coll
end CP
