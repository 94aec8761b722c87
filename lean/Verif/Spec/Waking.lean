import Verif.Spec.History
import Verif.Spec.Events

/-! # Specification: who wakes, and whose idle time starts again (C49) -/

namespace CP
variable {F : Type}
namespace Sp

/-- The shapes of `b` and `c` touch: `EachArbiter` of `b` visits a contact between the two bodies. -/
def Touching (s : Sp F) (b c : Nat) : Prop := ∃ l, s.arbList b = some l ∧ ∃ x ∈ l,
  ((s.arbs x).bodyA = b ∧ (s.arbs x).bodyB = c) ∨ ((s.arbs x).bodyA = c ∧ (s.arbs x).bodyB = b)

/-- The same through a contact of the shape `sh`. -/
def TouchingBy (s : Sp F) (sh b c : Nat) : Prop := ∃ l, s.arbList b = some l ∧ ∃ x ∈ l, ((s.arbs x).a = sh ∨ (s.arbs x).b = sh) ∧
  (((s.arbs x).bodyA = b ∧ (s.arbs x).bodyB = c) ∨ ((s.arbs x).bodyA = c ∧ (s.arbs x).bodyB = b))

/-- Waking `c` starts the idle time of `x` again: `x` is `c` itself, or sleeps in the same component, or is a body that is not
static and touches `c`. -/
def Restarts (s : Sp F) (c x : Nat) : Prop :=
  x = c ∨ ((s.bodies c).root ≠ none ∧ (s.bodies x).root = (s.bodies c).root) ∨ (s.Touching c x ∧ s.typ x ≠ .static)

/-- What waking the dynamic bodies among `P` does: exactly the components of these bodies wake, and exactly the idle times of
these components, of the bodies themselves and of what touches the bodies start again. -/
structure Stirred [GoFloat F] (P : Nat → Prop) (s t : Sp F) : Prop where
  awake : ∀ x c, P c → s.typ c = .dynamic → (s.bodies x).root = (s.bodies c).root → (t.bodies x).root = none
  asleep : ∀ x, (∀ c, P c → s.typ c = .dynamic → (s.bodies x).root ≠ (s.bodies c).root) → (t.bodies x).root = (s.bodies x).root
  restart : ∀ x c, P c → s.typ c = .dynamic → s.Restarts c x → (t.bodies x).idle = .time 0
  idle : ∀ x, (∀ c, P c → s.typ c = .dynamic → ¬ s.Restarts c x) → (t.bodies x).idle = (s.bodies x).idle

/-- The bodies that an operation disturbs: the body that is removed, that gets or loses a shape, the ends of a constraint
that is added or removed, the bodies that the program activates; for a static body, what touches (the filtered shape of) it. -/
def Op.disturbs (s : Sp F) : Op F → Nat → Prop
  | .removeBody b, c => c = b
  | .addShape sh, c => c = (s.shapes sh).body
  | .removeShape sh _, c => c = (s.shapes sh).body ∨ (s.typ (s.shapes sh).body = .static ∧ s.TouchingBy sh (s.shapes sh).body c)
  | .addConstraint j, c => c = (s.cons j).a ∨ c = (s.cons j).b
  | .removeConstraint j, c => c = (s.cons j).a ∨ c = (s.cons j).b
  | .activate b, c => c = b
  | .activateStatic b none, c => s.Touching b c
  | .activateStatic b (some sh), c => s.TouchingBy sh b c
  | .query script, c => LockOp.act c ∈ script
  | _, _ => False

/-- The step hands contacts between the shapes `p` and `q` to the solver: the narrow phase finds contacts, no callback says no or
asked to ignore the pair, and the pair is not inert. -/
def StepIn.presses (i : StepIn F) (s : Sp F) (p q : Nat) : Prop :=
  ∃ d, i.contact p q = some d ∧ ((s.pairSt p q).onContact d (s.inert p q) true).2 = .active

/-- The step wakes the body `b` because of a contact: it is dynamic, one of its shapes presses against another shape, and it
sleeps or the other body is kinematic. -/
def StepIn.pushes (i : StepIn F) (s : Sp F) (b : Nat) : Prop := s.typ b = .dynamic ∧ ∃ p q, i.presses s p q ∧ (s.shapes p).body = b ∧
  ((s.bodies b).root ≠ none ∨ s.typ (s.shapes q).body = .kinematic)

/-- A constraint of the space connects the dynamic body `b` to a kinematic one. -/
def pulled (s : Sp F) (b : Nat) : Prop := s.typ b = .dynamic ∧ ∃ c, (s.cons c).inSpace = true ∧
  (((s.cons c).a = b ∧ s.typ (s.cons c).b = .kinematic) ∨ ((s.cons c).b = b ∧ s.typ (s.cons c).a = .kinematic))

/-- The idle time of a body that nothing disturbs: the awake dynamic bodies of the space start again if they move and get `dt` more
otherwise; the others keep theirs. -/
def StepIn.idles [Add F] [OfNat F 0] (i : StepIn F) (s : Sp F) (b : Nat) : Idle F :=
  if s.typ b = .dynamic ∧ (s.bodies b).inSpace = true ∧ (s.bodies b).root = none then
    if i.moving b then .time 0 else match (s.bodies b).idle with | .time t => .time (t + i.dt) | .infinity => .infinity
  else (s.bodies b).idle

/-- No callback of the step wakes a body. -/
def StepIn.calm (i : StepIn F) : Prop :=
  i.posActs = [] ∧ (∀ d ∈ i.pairs, d.beginActs = [] ∧ d.preActs = []) ∧ (∀ y, i.sepActs y = []) ∧ i.lateActs = []

/-- The operations other than `Step`, `SetGravity` and `SetType`; Separate callbacks wake nobody. -/
def Op.direct : Op F → Prop
  | .setType _ _ => False
  | .setGravity => False
  | .step _ => False
  | .removeShape _ acts => ∀ x, acts x = []
  | _ => True

end Sp
end CP
