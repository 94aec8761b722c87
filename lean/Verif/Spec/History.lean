import Verif.Model.Space
import Verif.Spec.Graph
import Verif.Spec.Lists

/-! # Specification: histories of a space

The public operations on a space, what a program must respect when it calls them, and the states a program can
reach from `NewSpace`. -/

namespace CP
variable {F : Type}
namespace Sp

/-- Two reports about the same unordered pair of shapes. -/
def CollideIn.sameAs (d e : CollideIn) : Prop := (d.a = e.a ∧ d.b = e.b) ∨ (d.a = e.b ∧ d.b = e.a)

/-- What the broad phase guarantees about a reported pair (shapes of the space, of different bodies, one of them in the
dynamic index), that the narrow phase finds at most two contacts (`MAX_CONTACTS_PER_ARBITER`), and that the callbacks do not wake sleeping bodies. -/
structure PairOk (s : Sp F) (e : CollideIn) : Prop where
  inA : (s.shapes e.a).inSpace = true
  inB : (s.shapes e.b).inSpace = true
  ne : (s.shapes e.a).body ≠ (s.shapes e.b).body
  dyn : e.a ∈ s.dynamicShapes ∨ e.b ∈ s.dynamicShapes
  count : e.count ≤ maxContacts
  acts : ∀ b ∈ e.beginActs ++ e.preActs, (s.bodies b).root = none

/-- What the environment guarantees about one step: pairs as the broad phase reports them, each once, and position
functions, Begin and PreSolve callbacks that wake no sleeping body. -/
structure StepOk (s : Sp F) (i : StepIn F) : Prop where
  pos : ∀ b ∈ i.posActs, (s.bodies b).root = none
  pairs : ∀ e ∈ i.pairs, PairOk s e
  once : i.pairs.Pairwise fun d e => ¬ d.sameAs e

/-- A shape of body `b` is in the space. -/
def hasShapes (s : Sp F) (b : Nat) : Prop := ∃ sh, (s.shapes sh).inSpace = true ∧ (s.shapes sh).body = b
/-- A constraint of body `b` is in the space. -/
def hasCons (s : Sp F) (b : Nat) : Prop := ∃ c, (s.cons c).inSpace = true ∧ ((s.cons c).a = b ∨ (s.cons c).b = b)
/-- A body that shares a contact or a constraint with `b` sleeps. -/
def sleepingNeighbour (s : Sp F) (b : Nat) : Prop := ∃ c, s.Linked b c ∧ (s.bodies c).root ≠ none

/-- The public operations. Callbacks are part of the operations during which they run. -/
inductive Op (F : Type)
  | addBody (b : Nat)
  | removeBody (b : Nat)
  | setType (b : Nat) (t : BType)
  | addShape (sh : Nat)
  | removeShape (sh : Nat) (acts : Nat → List Nat)
  | addConstraint (c : Nat)
  | removeConstraint (c : Nat)
  | activate (b : Nat)
  | activateStatic (b : Nat) (filter : Option Nat)
  | setGravity
  | setThreshold (t : Idle F)
  | query (script : List LockOp)
  | step (i : StepIn F)

/-- Which bodies are in the space after the operation. -/
def Op.bodyIn (o : Op F) (f : Nat → Bool) : Nat → Bool :=
  match o with
  | .addBody b => Function.update f b true
  | .removeBody b => Function.update f b false
  | _ => f
/-- Which shapes are in the space after the operation. -/
def Op.shapeIn (o : Op F) (f : Nat → Bool) : Nat → Bool :=
  match o with
  | .addShape sh => Function.update f sh true
  | .removeShape sh _ => Function.update f sh false
  | _ => f
/-- Which constraints are in the space after the operation. -/
def Op.conIn (o : Op F) (f : Nat → Bool) : Nat → Bool :=
  match o with
  | .addConstraint c => Function.update f c true
  | .removeConstraint c => Function.update f c false
  | _ => f
/-- The types of the bodies after the operation. -/
def Op.types (o : Op F) (f : Nat → BType) : Nat → BType :=
  match o with
  | .setType b t => Function.update f b t
  | _ => f
/-- The constraints of a body in the order of `EachConstraint` after the operation; `att c` says whether constraint `c`
is attached to the body. -/
def Op.conOrder (o : Op F) (att : Nat → Bool) (l : List Nat) : List Nat :=
  match o with
  | .addConstraint c => if att c then c :: l else l
  | .removeConstraint c => l.erase c
  | _ => l

/-- Constraint `c` is attached to body `b`. -/
def joins (s : Sp F) (c b : Nat) : Bool := (s.cons c).a == b || (s.cons c).b == b

/-- What an operation does to the content of the space. -/
structure Effect (o : Op F) (s t : Sp F) : Prop where
  bodyIn : ∀ b, (t.bodies b).inSpace = o.bodyIn (fun b => (s.bodies b).inSpace) b
  types : ∀ b, t.typ b = o.types s.typ b
  shapeIn : ∀ sh, (t.shapes sh).inSpace = o.shapeIn (fun sh => (s.shapes sh).inSpace) sh
  shapeBody : ∀ sh, (t.shapes sh).body = (s.shapes sh).body
  conIn : ∀ c, (t.cons c).inSpace = o.conIn (fun c => (s.cons c).inSpace) c
  ends : ∀ c, (t.cons c).a = (s.cons c).a ∧ (t.cons c).b = (s.cons c).b
  conOrder : ∀ b l, s.conList b = some l → t.conList b = some (o.conOrder (fun c => s.joins c b) l)
  staticBody : t.staticBody = s.staticBody
  locked : t.locked = s.locked
  sensor : ∀ sh, (t.shapes sh).sensor = (s.shapes sh).sensor

variable [GoFloat F]

/-- Running an operation. -/
def Op.run (s : Sp F) : Op F → Option (Sp F)
  | .addBody b => s.addBody b
  | .removeBody b => s.removeBody b
  | .setType b t => s.setType b t
  | .addShape sh => s.addShape sh
  | .removeShape sh acts => s.removeShape sh acts
  | .addConstraint c => s.addConstraint c
  | .removeConstraint c => s.removeConstraint c
  | .activate b => s.bodyActivate b
  | .activateStatic b f => s.activateStatic b f
  | .setGravity => s.setGravity
  | .setThreshold t => some { s with threshold := t }
  | .query script => script.foldlM LockOp.run s
  | .step i => s.step i

/-- What the program must respect: the asserts of the code (an object is added once and removed only while it is in
the space, a constraint has two different ends), the objects are among those of the program, dynamic bodies are in the
space as long as they have shapes or constraints in it, a type is not changed while the body or a neighbour sleeps,
a threshold is positive and is not switched off while bodies sleep, queries and iterations (nested in each other in any
way, with callbacks that wake bodies) are left as often as they are entered. -/
def Op.Allowed (s : Sp F) : Op F → Prop
  | .addBody b => (s.bodies b).inSpace = false ∧ b < s.nBodies
  | .removeBody b => (s.bodies b).inSpace = true ∧ b ≠ s.staticBody ∧
      (s.typ b = .dynamic → ¬ s.hasShapes b ∧ ¬ s.hasCons b)
  | .setType b t => (s.bodies b).root = none ∧ b ≠ s.staticBody ∧ (s.typ b = .static → ¬ s.sleepingNeighbour b) ∧
      ((s.bodies b).inSpace = false → ¬ s.hasShapes b ∧ (t = .dynamic → ¬ s.hasCons b))
  | .addShape sh => (s.shapes sh).inSpace = false ∧
      (s.typ (s.shapes sh).body = .dynamic → (s.bodies (s.shapes sh).body).inSpace = true)
  | .removeShape sh _ => (s.shapes sh).inSpace = true
  | .addConstraint c => (s.cons c).inSpace = false ∧ (s.cons c).a ≠ (s.cons c).b ∧ c < s.nCons ∧
      (s.typ (s.cons c).a = .dynamic → (s.bodies (s.cons c).a).inSpace = true) ∧
      (s.typ (s.cons c).b = .dynamic → (s.bodies (s.cons c).b).inSpace = true)
  | .removeConstraint c => (s.cons c).inSpace = true
  | .activate _ => True
  | .activateStatic _ _ => True
  | .setGravity => True
  | .setThreshold t => match t with | .infinity => s.sleeping = [] | .time x => 0 < x
  | .query script => lockDepth 0 script = some 0
  | .step i => StepOk s i

/-- /repo/space.go:63-106 `NewSpace`: an empty space with its static body (body 0), and the objects of the program,
none of them in the space: bodies of any type, shapes on any bodies, constraints between any bodies. -/
def newSpace (n m : Nat) (type : Nat → BType) (shape : Nat → Nat × Bool) (con : Nat → Nat × Nat) : Sp F where
  nBodies := n + 1
  nCons := m
  bodies b := if b = 0 then { idle := .infinity, infMass := true, inSpace := true } else
    { idle := if type b = .static then .infinity else .time 0, infMass := decide (type b ≠ .dynamic) }
  shapes sh := { body := (shape sh).1, sensor := (shape sh).2 }
  cons c := { a := (con c).1, b := (con c).2 }
  arbs _ := { a := 0, b := 0, bodyA := 0, bodyB := 0 }
  bufs _ := ⟨0, 0, 0⟩
  arbBound := 0
  bufBound := 0
  threshold := .infinity
  staticBody := 0
  dynamicBodies := []
  staticBodies := []
  roused := []
  sleeping := []
  staticShapes := []
  dynamicShapes := []
  constraints := []
  arbiters := []
  cached := []
  pool := []
  head := none
  locked := 0
  stamp := 0
  trace := []

/-- The states a program can reach. -/
inductive Reach : Sp F → Prop
  | new (n m : Nat) (type : Nat → BType) (shape : Nat → Nat × Bool) (con : Nat → Nat × Nat) :
      Reach (newSpace n m type shape con)
  | op {s t : Sp F} (o : Op F) : Reach s → o.Allowed s → o.run s = some t → Reach t

end Sp
end CP
