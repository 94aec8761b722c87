import Verif.Spec.Callbacks
import Verif.Spec.Memory
import Verif.Spec.History

/-! # Specification: exactly which callbacks a pair of shapes gets

An automaton with four states for every pair of shapes. Its input in one step is what the narrow phase and the callbacks
answer about the pair, and whether both bodies rest (are static or asleep) before and after the step. -/

namespace CP
variable {F : Type}

/-- What is between two shapes: nothing; contacts that a callback asked to ignore until the shapes separate; contacts that the
solver does not see (a sensor, a PreSolve that said no, …); contacts the solver works on (they are in the lists
`EachArbiter` of the bodies). -/
inductive PairSt
  | apart
  | ignored
  | touching
  | active
deriving DecidableEq, Repr

/-- The shapes have contacts in a step. `inert`: a sensor, or two bodies of infinite mass. `rest`: both bodies rest after
the step. -/
def PairSt.onContact (d : Sp.CollideIn) (inert rest : Bool) (σ : PairSt) : List EvKind × PairSt :=
  let begins := decide (σ = .apart)
  let ign := decide (σ = .ignored) || (begins && (!d.beginRet || d.beginIgnore))
  let ign' := ign || d.preIgnore
  let solve := !ign' && d.preRet && !inert
  ((if begins then [.begin] else []) ++ (if ign then [] else [.preSolve]) ++ (if solve && !rest then [.postSolve] else []),
    if ign' then .ignored else if solve then .active else .touching)

/-- The shapes have no contacts in a step. `frozen`: before the step both bodies rest and not both are static. `rest`: both
bodies rest after the step. Contacts of sleeping bodies are not computed: they come back into the solver as they were when the
bodies wake. -/
def PairSt.onNone (frozen rest : Bool) : PairSt → List EvKind × PairSt
  | .apart => ([], .apart)
  | .active =>
    if frozen then (if rest then ([], .active) else ([.postSolve], .active))
    else (if rest then ([], .touching) else ([.separate], .apart))
  | σ => if rest then ([], σ) else ([.separate], .apart)

/-- The callbacks of the pair in a trace. -/
def word (p q : Nat) (tr : List Ev) : List EvKind := (tr.filter (·.about p q)).map (·.kind)

namespace Sp

/-- The report of the narrow phase about the pair in a step: the one with contacts. -/
def StepIn.contact (i : StepIn F) (p q : Nat) : Option CollideIn :=
  i.pairs.find? fun d => decide (d.count ≠ 0) && ((d.a == p && d.b == q) || (d.a == q && d.b == p))

/-- Contacts between these shapes never reach the solver. -/
def inert (s : Sp F) (p q : Nat) : Bool := (s.shapes p).sensor || (s.shapes q).sensor ||
  ((s.bodies (s.shapes p).body).infMass && (s.bodies (s.shapes q).body).infMass)

instance (s : Sp F) (b : Nat) : Decidable (s.resting b) := by unfold resting; infer_instance

/-- The bodies of both shapes are static or asleep. -/
def rests (s : Sp F) (p q : Nat) : Bool := decide (s.resting (s.shapes p).body) && decide (s.resting (s.shapes q).body)

/-- Both rest, and at least one of them sleeps. -/
def frozen (s : Sp F) (p q : Nat) : Bool := s.rests p q && (s.isSleeping (s.shapes p).body || s.isSleeping (s.shapes q).body)

/-- The arbiter that says that the shapes touch. -/
def arbOf (s : Sp F) (p q : Nat) : Option Nat := (List.range s.arbBound).find? fun x =>
  !s.pool.contains x && decide ((s.arbs x).state ≠ .cached ∧ (s.arbs x).state ≠ .invalidated) && s.samePair p q x

/-- The arbiter is in the list of its bodies. -/
def listed (s : Sp F) (x : Nat) : Bool := ((s.arbList (s.arbs x).bodyA).getD []).contains x

/-- The state of the pair. -/
def pairSt (s : Sp F) (p q : Nat) : PairSt :=
  match s.arbOf p q with
  | none => .apart
  | some x => if s.listed x then .active else if (s.arbs x).state = .ignore then .ignored else .touching

/-- Operations during which collision callbacks may be called. -/
def Op.loud : Op F → Bool
  | .removeShape _ _ => true
  | .step _ => true
  | _ => false

end Sp
end CP
