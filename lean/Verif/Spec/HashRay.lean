import Verif.Spec.SpaceHash
import Verif.Model.HashRay

/-! # Specification: segments and the grid of the spatial hash -/

namespace CP

/-- What the callback keeps, and the least number it has returned, when it is called for the shapes `l` in turn. -/
def callEach {F σ : Type} [GoFloat F] (f : Obj → σ → σ × F) (l : List Obj) (p : σ × F) : σ × F :=
  l.foldl (fun p o => ((f o p.1).1, min p.2 (f o p.1).2)) p

/-- The coordinate `p` is on a line of the grid of cells of side `dim`. -/
def OnLine (dim p : ℝ) : Prop := ∃ n : ℤ, p = n * dim

/-- A coordinate that goes from `p` to `q` does not leave a line of the grid downwards; and one that stays is not so close to a line
(about 1e-308 of a cell) without being on it that the code's infinity is too small. -/
structure LeavesWell (dim p q : ℝ) : Prop where
  down : q < p → ¬ OnLine dim p
  level : p = q → OnLine dim p ∨ ∀ n : ℤ, dim ≤ |p - n * dim| * GoFloat.maxFloat

/-- The point of the segment from `a` to `b` at the time `t`. -/
def alongAt (a b : Vec ℝ) (t : ℝ) : Vec ℝ := ⟨a.x + t * (b.x - a.x), a.y + t * (b.y - a.y)⟩

/-- The point is in the closed cell `(i, j)` of the grid. -/
def InCell (dim : ℝ) (p : Vec ℝ) (i j : ℤ) : Prop := i * dim ≤ p.x ∧ p.x ≤ (i + 1) * dim ∧ j * dim ≤ p.y ∧ p.y ≤ (j + 1) * dim

/-- The box contains the point. -/
def BB.Has (B : BB ℝ) (p : Vec ℝ) : Prop := B.l ≤ p.x ∧ p.x ≤ B.r ∧ B.b ≤ p.y ∧ p.y ≤ B.t

/-- The segment, on its way left and up, touches the box only with its lower left corner, and that on a crossing of the grid. -/
def Grazes (dim : ℝ) (a b : Vec ℝ) (B : BB ℝ) (p : Vec ℝ) : Prop :=
  b.x < a.x ∧ a.y < b.y ∧ p.x = B.l ∧ p.y = B.b ∧ OnLine dim p.x ∧ OnLine dim p.y

end CP
