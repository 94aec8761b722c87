import Verif.Model.Engine
import Verif.Model.Scene

/-! # The whole simulation (/repo/space.go:676-782 `Step` with everything it calls)

Model/Scene.lean has the bookkeeping, the two indexes and the narrow phase, with the motion of the bodies as data; Model/Engine.lean
the bookkeeping and the motion, with what the collision phase finds as data. Here nothing of the engine is data any more: the
shapes are where the moved bodies put them, the pairs and contacts are those found for these shapes, they are merged with what the
arbiters remember from earlier steps, and the solver works with the result. Data are only the arguments and what the user's
callbacks do. Not modelled: custom velocity, position and force functions, and setters of bodies, shapes and constraints called
from inside `Step`. -/

namespace CP
section
variable {F : Type} [GoFloat F]
open GoFloat

/-- /repo/shape.go:25-42 `Shape`: elasticity, friction and surface velocity. -/
structure Surface (F : Type) where
  e : F
  u : F
  v : Vec F

/-- A space with everything in it: bookkeeping, indexes, shapes and constraint flags; the numbers of the bodies and constraints;
the contents of the arbiters by address; the materials of the shapes. -/
structure Sim (F : Type) where
  sc : Scene F
  mo : Motion F
  arbs : Nat → Arb F
  surf : Nat → Surface F

/-- One call of `Step`: its argument, the settings of the space (/repo/space.go:13-31), and what the callbacks do: `answer` and
`posActs`, `sepActs`, `lateActs` as in `Sp.StepIn`, `adjust` is what Begin and PreSolve change in an arbiter (`SetFriction`,
`SetContactPointSet`, ...; the number of contacts stays), `again` as in `Scene.follow`. -/
structure SimIn (F : Type) where
  dt : F
  gravity : Vec F
  damping : F
  iterations : Nat
  slop : F
  collisionBias : F
  idleSpeed : F
  answer : Nat → Nat → Sp.CollideIn
  adjust : Nat → Nat → Arb F → Arb F := fun _ _ arb => arb
  posActs : List Nat := []
  sepActs : Nat → List Nat := fun _ => []
  lateActs : List Nat := []
  again : Nat → Bool := fun _ => false

/-- /repo/shape.go:167-169 `Shape.CacheBB`. -/
def QShape.update (q : QShape F) (t : Transform F) : QShape F :=
  { q with shp := { q.shp with cls := (q.shp.cls.cacheData t).1, bb := (q.shp.cls.cacheData t).2 } }

/-- What the collision functions read from the body of a shape when they need it (/repo/collision.go:133, 149-150, 182
`body.Rotation()`). -/
def QShape.turned (q : QShape F) (b : Body F) : QShape F := { q with shp := { q.shp with rot := b.rotation } }

namespace Scene

/-- /repo/space.go:419-481 `SpaceCollideShapesFunc`, its beginning: as `Scene.test`, with the whole `CollisionInfo`. -/
def find (sc : Scene F) (answer : Nat → Nat → Sp.CollideIn) (call : Obj × Obj × Cid) :
    Option (Option (Sp.CollideIn × Coll.Info F)) :=
  (sc.queryReject call.1 call.2.1).bind fun r =>
    if r then some none
    else (Coll.collide (sc.shapes call.1).shp (sc.shapes call.2.1).shp call.2.2.toNat).map fun res =>
      let x := if res.1 then call.2.1 else call.1
      let y := if res.1 then call.1 else call.2.1
      some ({ answer x y with a := x, b := y, count := res.2.contacts.length }, res.2)

/-- /repo/space.go:705-707 of `Step`: the indexes afterwards, and what was found for every tested pair. -/
def search (sc : Scene F) (answer : Nat → Nat → Sp.CollideIn) : Option (World F × List (Sp.CollideIn × Coll.Info F)) :=
  (sc.index.reindexQuery sc.nextId).bind fun r =>
    (r.2.mapM (sc.find answer)).map fun l => (r.1, l.filterMap id)

end Scene

/-- /repo/space.go:681-705 of `Step`: the bookkeeping before the collision phase. -/
def Sp.opening (s : Sp F) (posActs : List Nat) : Option (Sp F) := do
  let s := { s with stamp := s.stamp + 1 }
  let s := s.arbiters.foldl Sp.resetArb s
  let s := { s with arbiters := [] }
  let s := s.lock
  let s ← s.runActs posActs
  some s.pushFresh

/-- /repo/arbiter.go:35-64 `Init`: the contents of a new arbiter. -/
def Arb.blank : Arb F := ⟨0, 0, ⟨0, 0⟩, 0, 0, [], ⟨0, 0⟩, true⟩

/-- The contacts of a `CollisionInfo` as arbiters keep them. The fields that `PushContact` leaves alone are zero here; all of them
are set before they are read. -/
def freshContact (c : Coll.Contact F) : Contact F := ⟨c.r1, c.r2, 0, 0, 0, 0, 0, 0, 0, c.hash.toNat⟩

namespace Sim

/-- /repo/arbiter.go:191-260 `Update` for the pair found: `old` is what the arbiter remembers; then what the callbacks of the pair
change. -/
def meet (surf : Nat → Surface F) (adjust : Nat → Nat → Arb F → Arb F) (h : Bodies F) (s : Sp F) (old : Arb F) (x y : Nat)
    (info : Coll.Info F) : Arb F :=
  adjust x y (old.update h (s.shapes x).body (s.shapes y).body info.n (info.contacts.map freshContact)
    (surf x).e (surf y).e (surf x).u (surf y).u (surf x).v (surf y).v false)

/-- /repo/space.go:419-481 `SpaceCollideShapesFunc` after `Collide`: the bookkeeping (`Sp.collide`) and the contents of the
arbiter, which loses its contacts if the pair is not handed to the solver. -/
def touch (surf : Nat → Surface F) (adjust : Nat → Nat → Arb F → Arb F) (h : Bodies F) (st : Sp F × (Nat → Arb F))
    (d : Sp.CollideIn × Coll.Info F) : Option (Sp F × (Nat → Arb F)) := do
  let t ← st.1.collide d.1
  if d.1.count = 0 then some (t, st.2)
  else
    let x := (st.1.lookupArb d.1.a d.1.b d.1.pick).2
    let old := if (st.1.cached.find? (st.1.samePair d.1.a d.1.b)).isSome then st.2 x else Arb.blank
    let new := meet surf adjust h st.1 old d.1.a d.1.b d.2
    let new := if (t.arbs x).count = 0 then { new with contacts := [] } else new
    some (t, Function.update st.2 x new)

/-- /repo/space.go:705-707 of `Step`: the shapes of the dynamic index are put where their bodies are (`ShapeUpdateFunc`,
/repo/space.go:411-413). -/
def placed (s : Sim F) (h : Bodies F) (x : Nat) : QShape F :=
  let q := (s.sc.shapes x).turned (h (s.sc.sp.shapes x).body)
  if x ∈ s.sc.sp.dynamicShapes then q.update (h (s.sc.sp.shapes x).body).transform else q

/-- The velocities of the shapes' bodies (/repo/space.go:108-110 `ShapeVelocityFunc`). -/
def vel (sp : Sp F) (h : Bodies F) (x : Nat) : Vec F := (h (sp.shapes x).body).v

/-- The scene of the collision phase: the bodies have moved. -/
def ready (s : Sim F) (dt : F) : Scene F :=
  let h := Motion.move s.mo.bodies dt s.sc.sp.dynamicBodies
  s.sc.moved (s.placed h) (vel s.sc.sp h)

/-- After bodies have changed: rotation and velocity are read from the body when they are needed. -/
def settle (s : Sim F) : Sim F :=
  { s with sc := s.sc.moved (fun x => (s.sc.shapes x).turned (s.mo.bodies (s.sc.sp.shapes x).body)) (vel s.sc.sp s.mo.bodies) }

/-- The bookkeeping and the solver of a step, given what the collision phase found. -/
def SimIn.engine (i : SimIn F) (pairs : List Sp.CollideIn) (contact : Nat → Arb F) : EngineIn F where
  dt := i.dt
  gravity := i.gravity
  damping := i.damping
  iterations := i.iterations
  slop := i.slop
  collisionBias := i.collisionBias
  idleSpeed := i.idleSpeed
  pairs := pairs
  contact := contact
  posActs := i.posActs
  sepActs := i.sepActs
  lateActs := i.lateActs

/-- /repo/space.go:711-775: the arbiters after the solver. -/
def solved (m : Motion F) (t : Tick F) : Nat → Arb F :=
  (({ bodies := Motion.move m.bodies t.dt t.movers, joints := m.joints, arbs := t.contact } : Solver F).run
    (Solver.stepProgram t.arbs t.joints t.dyn t.iterations t.dt m.currDt t.slop t.collisionBias t.damping t.gravity)).arbs

/-- /repo/space.go:676-782 `Step`. -/
def step (hash : Obj → Nat) (s : Sim F) (i : SimIn F) : Option (Sim F) :=
  if i.dt = 0 then some s
  else do
    let h := Motion.move s.mo.bodies i.dt s.sc.sp.dynamicBodies
    let sc := s.ready i.dt
    let (w, found) ← sc.search i.answer
    let start ← s.sc.sp.opening i.posActs
    let (_, arbs) ← found.foldlM (touch s.surf i.adjust h) (start, s.arbs)
    let e := SimIn.engine i (found.map Prod.fst) arbs
    let mid ← s.sc.sp.half (e.acts h)
    let sp ← mid.finish (e.acts h)
    let w ← Scene.follow hash i.again s.sc.sp sp w
    some (settle { s with
      sc := { sc with sp := sp, index := w }
      mo := s.mo.tick (e.tick s.sc.sp mid)
      arbs := solved s.mo (e.tick s.sc.sp mid) })

end Sim
end
end CP
