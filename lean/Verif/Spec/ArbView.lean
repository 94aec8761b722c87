import Verif.Model.ArbView
import Verif.Spec.Float

/-! # Specification: contact data as a user sees it -/

namespace CP

/-- The same contacts with the roles of the two shapes exchanged. -/
noncomputable def PointSet.mirror (s : PointSet ℝ) : PointSet ℝ :=
  { normal := ⟨-s.normal.x, -s.normal.y⟩
    points := s.points.map fun q => ⟨q.pointB, q.pointA, q.distance⟩ }

/-- The signed gap of a contact along the normal. -/
noncomputable def signedGap (n p q : Vec ℝ) : ℝ := (q.x - p.x) * n.x + (q.y - p.y) * n.y

/-- A set in which every distance is the gap between its two points along the normal. -/
def PointSet.Measured (s : PointSet ℝ) : Prop := ∀ q ∈ s.points, q.distance = signedGap s.normal q.pointA q.pointB

/-- The impulses contact `id` should start from, given the contacts of the step before: those of the last old contact
with that identity, or zero. -/
def carried {F : Type} [GoFloat F] (old : List (Contact F)) (id : Nat) : F × F :=
  match old.reverse.find? (fun o => o.hash = id) with
  | some o => (o.jnAcc, o.jtAcc)
  | none => (0, 0)

end CP
