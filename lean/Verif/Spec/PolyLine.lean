import Verif.Model.PolyLine

/-! # Specification for C34 and C36 -/

namespace CP
namespace PL
variable {F : Type}

/-- Neighbours in a list: for a polyline, its directed segments. -/
def steps {A : Type} (l : List A) : List (A × A) := l.zip l.tail

/-- The directed segments of all lines. -/
def allSteps (lines : List (Line F)) : List (Vec F × Vec F) := lines.flatMap steps

/-- How many segments start, and how many end, at a point. -/
def starts [GoFloat F] (P : Vec F) (l : List (Vec F × Vec F)) : Nat := (l.filter fun s => vecEq s.1 P).length
def ends [GoFloat F] (P : Vec F) (l : List (Vec F × Vec F)) : Nat := (l.filter fun s => vecEq s.2 P).length

/-- The line returns to its start. -/
def Closed (l : Line F) : Prop := 2 ≤ l.length ∧ l.head? = l.getLast?

/-- The distance of `v` from the line through `a` and `b`, as the code computes it (with `Normalize`, see
`C36_distance`). -/
def offChord [GoFloat F] (a b v : Vec F) : F :=
  fabs ((b.sub a).perp.normalize.dot v - (b.sub a).perp.normalize.dot a)

/-- `r` is what remains of the vertices of `walk` at the positions `ks`: the first, the last and some between them in order;
every vertex left out is within `tol` of the line through the two kept vertices next to it, and these are different
points. -/
structure Simplified [GoFloat F] (walk : Line F) (tol : F) (r : Line F) (ks : List Nat) : Prop where
  kept : r.map some = ks.map fun k => walk[k]?
  order : ks.Pairwise (· < ·)
  first : ks.head? = some 0
  last : ks.getLast? = some (walk.length - 1)
  differ : ∀ s ∈ steps ks, walk[s.1]? ≠ walk[s.2]?
  close : ∀ s ∈ steps ks, ∀ k, s.1 < k → k < s.2 → ∀ a b v, walk[s.1]? = some a → walk[s.2]? = some b → walk[k]? = some v →
    offChord a b v ≤ tol

end PL
end CP
