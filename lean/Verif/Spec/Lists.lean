import Verif.Model.Space

/-! # Specification: histories of locks and of arbiter lists -/

namespace CP
variable {F : Type}
namespace Sp

/-- Every second element, beginning with the second. -/
def odds : List Nat → List Nat
  | [] => []
  | [_] => []
  | _ :: b :: l => b :: odds l

/-- What a program does inside of queries and iterations: entering one (`lock`), leaving one (`unlock`), and waking a
body from a callback or between queries. -/
inductive LockOp
  | lock
  | unlock
  | act (b : Nat)

/-- The number of locks held after a script, `none` if a lock is released that is not held. -/
def lockDepth : Nat → List LockOp → Option Nat
  | d, [] => some d
  | d, .lock :: l => lockDepth (d + 1) l
  | 0, .unlock :: _ => none
  | d + 1, .unlock :: l => lockDepth d l
  | d, .act _ :: l => lockDepth d l

/-- Running one entry of a script. -/
def LockOp.run [GoFloat F] (s : Sp F) : LockOp → Option (Sp F)
  | .lock => some s.lock
  | .unlock => s.unlock
  | .act b => s.bodyActivate b

/-- Threading an arbiter for its two bodies (`PushArbiter` twice, /repo/space.go:582-583), and `Unthread`. -/
inductive ThreadOp
  | push (x : Nat)
  | unthread (x : Nat)

/-- Running one of them. -/
def ThreadOp.run (s : Sp F) : ThreadOp → Sp F
  | .push x => (s.pushArbiter (s.arbs x).bodyA x).pushArbiter (s.arbs x).bodyB x
  | .unthread x => s.unthread x

/-- The arbiters that are threaded after the operation, newest first. -/
def ThreadOp.spec (l : List Nat) : ThreadOp → List Nat
  | .push x => x :: l
  | .unthread x => l.erase x

/-- An arbiter is not threaded twice. -/
def ThreadOp.legal (l : List Nat) : ThreadOp → Prop
  | .push x => x ∉ l
  | .unthread _ => True

/-- A legal history. -/
def threadLegal : List Nat → List ThreadOp → Prop
  | _, [] => True
  | l, o :: os => o.legal l ∧ threadLegal (o.spec l) os

/-- Arbiter `x` concerns body `b`. -/
def touches (s : Sp F) (b x : Nat) : Bool := (s.arbs x).bodyA == b || (s.arbs x).bodyB == b

end Sp
end CP
