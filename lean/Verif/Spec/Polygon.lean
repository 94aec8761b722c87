import Verif.Spec.Shapes

/-! # Polygons given by their vertices (specification for C28, C30) -/

namespace CP

/-- The pairs of neighbours in `prev :: l`. -/
def pairsFrom {A : Type} (prev : A) : List A → List (A × A)
  | [] => []
  | b :: rest => (prev, b) :: pairsFrom b rest

/-- The directed edges of a closed polygon. -/
def edges {A : Type} (l : List A) : List (A × A) :=
  match l.getLast? with
  | none => []
  | some p => pairsFrom p l

example : edges [1, 2, 3, 4] = [(4, 1), (1, 2), (2, 3), (3, 4)] := rfl

/-- Twice the signed area of the triangle: positive if `c` is to the left of the line from `a` to `b`. -/
def turn (a b c : Vec ℝ) : ℝ := (b.x - a.x) * (c.y - a.y) - (b.y - a.y) * (c.x - a.x)

/-- A strictly convex polygon in counter-clockwise order: at least three different vertices, and every vertex is strictly
to the left of every edge it is not an end of. -/
structure StrictlyConvex (l : List (Vec ℝ)) : Prop where
  three : 3 ≤ l.length
  nodup : l.Nodup
  left : ∀ e ∈ edges l, ∀ v ∈ l, v = e.1 ∨ v = e.2 ∨ 0 < turn e.1 e.2 v

/-- The points on the left of (or on) all edges. -/
def LeftOfEdges (l : List (Vec ℝ)) : Pts := fun p => ∀ e ∈ edges l, 0 ≤ turn e.1 e.2 p

end CP
