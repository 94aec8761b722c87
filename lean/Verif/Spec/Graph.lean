import Verif.Model.Space
import Mathlib.Logic.Relation

/-! # Specification: the contact graph, as seen through `EachArbiter` and `EachConstraint` -/

namespace CP
variable {F : Type}
namespace Sp

/-- `b` and `c` are the two ends of an arbiter that `EachArbiter` visits for `b`, or of a constraint that
`EachConstraint` visits for `b`. -/
def Linked (s : Sp F) (b c : Nat) : Prop :=
  (∃ l, s.arbList b = some l ∧ ∃ x ∈ l,
    ((s.arbs x).bodyA = b ∧ (s.arbs x).bodyB = c) ∨ ((s.arbs x).bodyA = c ∧ (s.arbs x).bodyB = b)) ∨
  (∃ l, s.conList b = some l ∧ ∃ k ∈ l,
    ((s.cons k).a = b ∧ (s.cons k).b = c) ∨ ((s.cons k).a = c ∧ (s.cons k).b = b))

/-- Connected through dynamic bodies. -/
def Connected (s : Sp F) (b c : Nat) : Prop :=
  Relation.ReflTransGen (fun p q => s.typ p = .dynamic ∧ s.typ q = .dynamic ∧ s.Linked p q) b c

end Sp
end CP
