import Verif.Spec.History
import Mathlib.Order.Disjoint
import Mathlib.Data.Set.Basic

/-! # Specification: the memory of the contacts

The contacts of the arbiters lie in arrays ("buffers") of 1024 contacts each that are used over and over again. -/

namespace CP
variable {F : Type}
namespace Sp

/-- The places that hold the contacts of arbiter `x`: (buffer, index). -/
def places (s : Sp F) (x : Nat) : Set (Nat × Nat) := {p | ∃ o, (s.arbs x).mem = .ring p.1 o ∧ o ≤ p.2 ∧ p.2 < o + (s.arbs x).count}

/-- Number of steps since the contacts of arbiter `x` were last updated. -/
def age (s : Sp F) (x : Nat) : Nat := s.stamp - (s.arbs x).stamp

/-- The body takes no part in collisions of its own: it is static or asleep. -/
def resting (s : Sp F) (b : Nat) : Prop := s.typ b = .static ∨ s.isSleeping b = true

/-- Between two steps: every arbiter in the cache was updated in one of the last three steps (counting the last one),
or belongs to two resting bodies. -/
def Fresh (s : Sp F) : Prop := ∀ x ∈ s.cached, s.age x < persistence ∨ (s.resting (s.arbs x).bodyA ∧ s.resting (s.arbs x).bodyB)

variable [GoFloat F]

/-- The state of a step before pair number `n` of the broad phase is looked at (`n` = number of pairs: after the last):
/repo/space.go:681-706. -/
def mid (s : Sp F) (i : StepIn F) (n : Nat) : Option (Sp F) := do
  let s := { s with stamp := s.stamp + 1 }
  let s := s.arbiters.foldl resetArb s
  let s := { s with arbiters := [] }
  let s ← s.lock.runActs i.posActs
  (i.pairs.take n).foldlM collide s.pushFresh

/-- The moments at which memory for contacts is asked for: between two operations of a program, and during a step before
each pair of the broad phase. -/
inductive Moment : Sp F → Prop
  | rest {s : Sp F} : Reach s → Moment s
  | mid {s t : Sp F} (i : StepIn F) (n : Nat) : Reach s → StepOk s i → s.mid i n = some t → Moment t

/-- Is the operation a step? -/
def Op.isStep : Op F → Bool
  | .step _ => true
  | _ => false

/-- Histories in which resting bodies are roused by collisions only: an operation between the steps wakes no sleeping
body and makes no static body move, and the Separate and PostSolve callbacks of the steps wake nobody. -/
inductive Calm : Sp F → Prop
  | new (n m : Nat) (type : Nat → BType) (shape : Nat → Nat × Bool) (con : Nat → Nat × Nat) :
      Calm (newSpace n m type shape con)
  | op {s t : Sp F} (o : Op F) : o.isStep = false → Calm s → o.Allowed s → o.run s = some t →
      (∀ b, s.resting b → t.resting b) → Calm t
  | step {s t : Sp F} (i : StepIn F) : Calm s → StepOk s i → (∀ y, i.sepActs y = []) → i.lateActs = [] →
      s.step i = some t → Calm t

end Sp
end CP
