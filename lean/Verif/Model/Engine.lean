import Verif.Model.Space
import Verif.Model.Motion

/-! # Bookkeeping and numbers together (/repo/space.go:676-782 `Step`, /repo/body.go setters)

Model/Space.lean has the lists, the sleeping components and the arbiters of a space without the numbers, Model/Motion.lean the
numbers with the lists as data. Here they are put together: the lists the solver runs over are those of the space, and the
kinetic energies that decide who falls asleep are those of the moved bodies. Body, constraint and arbiter addresses are the
same in both halves. Still data: which pairs the broad phase reports with which contacts (Model/Scene.lean), and what the user's
callbacks wake. Callbacks that change numbers (setters called from inside `Step`) are not modelled. -/

namespace CP
section
variable {F : Type} [GoFloat F]
open GoFloat

namespace Sp

/-- /repo/space.go:681-712 the first half of `Step`, from the counting of the step to `ProcessComponents`. -/
def half (s : Sp F) (i : StepIn F) : Option (Sp F) := do
  let s := { s with stamp := s.stamp + 1 }
  let s := s.arbiters.foldl resetArb s
  let s := { s with arbiters := [] }
  let s := s.lock
  let s ← s.runActs i.posActs
  let s := s.pushFresh
  let s ← i.pairs.foldlM collide s
  let s ← s.unlock
  s.processComponents i.dt i.moving

/-- /repo/space.go:714-718, 771-782 the second half of `Step`, without the solver. -/
def finish (s : Sp F) (i : StepIn F) : Option (Sp F) := do
  let s ← filterCached (setFilter i.sepActs) s.lock
  let s := s.arbiters.foldl (fun s x => s.emit .postSolve x) s
  let s ← s.runActs i.lateActs
  s.unlock

end Sp

/-- A space with the numbers of its bodies and constraints. -/
structure Engine (F : Type) where
  sp : Sp F
  mo : Motion F

/-- One call of `Step`: its argument, the settings of the space (/repo/space.go:13-31), what the collision phase finds (the
pairs, and for every arbiter its contacts, normal and coefficients), and the bodies woken by callbacks. -/
structure EngineIn (F : Type) where
  dt : F
  gravity : Vec F
  damping : F
  iterations : Nat
  slop : F
  collisionBias : F
  idleSpeed : F
  pairs : List Sp.CollideIn
  contact : Nat → Arb F
  posActs : List Nat := []
  sepActs : Nat → List Nat := fun _ => []
  lateActs : List Nat := []

/-- /repo/space.go:540-562: is the kinetic energy of the body above the threshold? -/
def EngineIn.restless (i : EngineIn F) (b : Body F) : Bool :=
  let dvsq := if i.idleSpeed ≠ 0 then i.idleSpeed * i.idleSpeed else i.gravity.lengthSq * i.dt * i.dt
  let keThreshold := if dvsq ≠ 0 then b.m * dvsq else 0
  decide (keThreshold < b.kineticEnergy)

/-- What the bookkeeping sees of a step; `seen` are the bodies after their positions were integrated. -/
def EngineIn.acts (i : EngineIn F) (seen : Bodies F) : Sp.StepIn F where
  dt := i.dt
  moving b := i.restless (seen b)
  posActs := i.posActs
  pairs := i.pairs
  sepActs := i.sepActs
  lateActs := i.lateActs

/-- What the solver works with: the lists of the space before and after `ProcessComponents`, and the arbiters, whose bodies
and states are those of the space's arbiters. -/
def EngineIn.tick (i : EngineIn F) (s mid : Sp F) : Tick F where
  dt := i.dt
  gravity := i.gravity
  damping := i.damping
  iterations := i.iterations
  slop := i.slop
  collisionBias := i.collisionBias
  movers := s.dynamicBodies
  dyn := mid.dynamicBodies
  arbs := mid.arbiters
  contact x := { i.contact x with a := (mid.arbs x).bodyA, b := (mid.arbs x).bodyB, first := decide ((mid.arbs x).state = .first) }
  joints := mid.constraints

namespace Engine

/-- /repo/space.go:676-782 `Step`. -/
def step (e : Engine F) (i : EngineIn F) : Option (Engine F) :=
  if i.dt = 0 then some e
  else do
    let j := i.acts (Motion.move e.mo.bodies i.dt e.sp.dynamicBodies)
    let mid ← e.sp.half j
    let sp ← mid.finish j
    some ⟨sp, e.mo.tick (i.tick e.sp mid)⟩

end Engine
end
end CP
