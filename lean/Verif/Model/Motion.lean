import Verif.Model.Solver

/-! # Whole steps: how bodies move (/repo/space.go:676-782 `Step`, without the bookkeeping)

`Space.Step` moves every body of `dynamicBodies`, runs the collision phase, and then runs the solver
on the arbiters found, the constraints and the bodies. The collision phase and the sleeping
bookkeeping (modelled in Model/Space.lean) enter here as data: which arbiters with which contacts the
solver is given, and which bodies are in `dynamicBodies` before and after `ProcessComponents`. -/

namespace CP
section
variable {F : Type} [GoFloat F]
open GoFloat

/-- What one call of `Step` works with: its argument, the space's settings (/repo/space.go:21-31)
and the lists it runs over. `movers` is `space.dynamicBodies` when positions are integrated
(/repo/space.go:701-703), `dyn` when velocities are (/repo/space.go:740-742, after
`ProcessComponents`), `arbs` is `space.arbiters` with the contents `contact`, `joints` is
`space.constraints`. -/
structure Tick (F : Type) where
  dt : F
  gravity : Vec F
  damping : F
  iterations : Nat
  slop : F
  collisionBias : F
  movers : List Nat
  dyn : List Nat
  arbs : List Nat
  contact : Nat → Arb F
  joints : List Nat

/-- The state that survives from one `Step` to the next: the bodies, the constraints (with their
accumulated impulses) and `space.curr_dt`. -/
structure Motion (F : Type) where
  bodies : Bodies F
  joints : Nat → Joint F
  currDt : F

namespace Motion

/-- /repo/space.go:701-703 the position loop, with the default `position_func`
(/repo/body.go:636-643). -/
def move (h : Bodies F) (dt : F) (movers : List Nat) : Bodies F :=
  movers.foldl (fun h k => h.set k ((h k).updatePosition dt)) h

/-- /repo/space.go:676-782 `Step`: nothing for `dt = 0`; else positions, then the solver phase on
whatever the collision phase produced. -/
def tick (m : Motion F) (t : Tick F) : Motion F :=
  if t.dt = 0 then m
  else
    let s : Solver F := { bodies := move m.bodies t.dt t.movers, joints := m.joints, arbs := t.contact }
    let s := s.run (Solver.stepProgram t.arbs t.joints t.dyn t.iterations t.dt m.currDt t.slop
      t.collisionBias t.damping t.gravity)
    { bodies := s.bodies, joints := s.joints, currDt := t.dt }

/-- A user's call: `ApplyForceAtWorldPoint` (/repo/body.go:505-511), `ApplyImpulseAtWorldPoint`
(/repo/body.go:519-524), any change to a constraint's settings, or `Step`. -/
inductive Act (F : Type)
  | force (k : Nat) (f point : Vec F)
  | impulse (k : Nat) (j point : Vec F)
  | joint (k : Nat) (j : Joint F)
  | step (t : Tick F)

/-- Executing a call. -/
def act (m : Motion F) : Act F → Motion F
  | .force k f pt => { m with bodies := m.bodies.set k ((m.bodies k).applyForceAtWorldPoint f pt) }
  | .impulse k j pt => { m with bodies := m.bodies.set k ((m.bodies k).applyImpulseAtWorldPoint j pt) }
  | .joint k j => { m with joints := fun i => if i = k then j else m.joints i }
  | .step t => m.tick t

/-- Executing a history. -/
def run (m : Motion F) (acts : List (Act F)) : Motion F := acts.foldl act m

end Motion
end
end CP
