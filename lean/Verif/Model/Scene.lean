import Verif.Model.Queries
import Verif.Spec.History

/-! # The whole collision phase: broad phase, `QueryReject`, narrow phase, bookkeeping

The bookkeeping of a space (`Model/Space.lean`), its two spatial indexes (`Model/BBTree.lean`), the geometry of the
shapes (`Model/Collide.lean`, `Model/Queries.lean`) and the `collideBodies` flags of the constraints, run together. What
`Model/Space.lean` takes as an input of a step (the pairs and their contact counts) is computed here. -/

namespace CP
open GoFloat
variable {F : Type}

/-- /repo/space.go:12-54 `Space` with its indexes, the geometry of the shapes (/repo/shape.go:25-42) and the flags of the
constraints (/repo/constraint.go:15-29). -/
structure Scene (F : Type) where
  sp : Sp F
  index : World F
  shapes : Nat → QShape F
  collideBodies : Nat → Bool

namespace Scene

/-- /repo/space.go:525-534 `QueryRejectConstraints` (`none`: the list has no end). The code stops at the first constraint
found, the model walks the list to its end. -/
def rejectConstraints (sc : Scene F) (a b : Nat) : Option Bool :=
  (sc.sp.conList a).map fun l => l.any fun c =>
    !sc.collideBodies c &&
      (((sc.sp.cons c).a == a && (sc.sp.cons c).b == b) || ((sc.sp.cons c).a == b && (sc.sp.cons c).b == a))

variable [GoFloat F]

/-- /repo/space.go:509-523 `QueryReject`. -/
def queryReject (sc : Scene F) (x y : Nat) : Option Bool :=
  if (sc.sp.shapes x).body = (sc.sp.shapes y).body then some true
  else if (sc.shapes x).filter.reject (sc.shapes y).filter then some true
  else if !(sc.shapes x).shp.bb.intersects (sc.shapes y).shp.bb then some true
  else sc.rejectConstraints (sc.sp.shapes x).body (sc.sp.shapes y).body

/-- /repo/space.go:419-481 `SpaceCollideShapesFunc`, its beginning: the test of one pair: `none` is a panic, `some none` a rejected pair,
otherwise the shapes in the order of the `CollisionInfo` and the number of contacts. `answer` is what the callbacks of the
pair will do. -/
def test (sc : Scene F) (answer : Nat → Nat → Sp.CollideIn) (call : Obj × Obj × Cid) : Option (Option Sp.CollideIn) :=
  (sc.queryReject call.1 call.2.1).bind fun r =>
    if r then some none
    else (Coll.collide (sc.shapes call.1).shp (sc.shapes call.2.1).shp call.2.2.toNat).map fun res =>
      let x := if res.1 then call.2.1 else call.1
      let y := if res.1 then call.1 else call.2.1
      some { answer x y with a := x, b := y, count := res.2.contacts.length }

/-- /repo/space.go:419-481 `SpaceCollideShapesFunc`, its result: the collision id for the next time. -/
def nextId (sc : Scene F) : PairFn := fun a b cid =>
  match sc.queryReject a b with
  | some false => match Coll.collide (sc.shapes a).shp (sc.shapes b).shp cid.toNat with
    | some res => BitVec.ofNat 32 res.2.id
    | none => cid
  | _ => cid

/-- /repo/space.go:705-706 of `Step`: `ReindexQuery` with `SpaceCollideShapesFunc`. The indexes afterwards and the tested
pairs in order (callbacks run in between; those a program may write, `Sp.StepOk`, do not change the indexes). -/
def broadPhase (sc : Scene F) (answer : Nat → Nat → Sp.CollideIn) : Option (World F × List Sp.CollideIn) :=
  (sc.index.reindexQuery sc.nextId).bind fun r =>
    (r.2.mapM (sc.test answer)).map fun l => (r.1, l.filterMap id)

/-- The calls of the index that belong to a change of the space's shape lists from those of `s` to those of `t`
(/repo/space.go:147-202 `Activate`, :204-258 `Deactivate`, :260-285 `AddShape`, :342-363 `RemoveShape` and /repo/body.go:147-223
`SetType`): shapes that leave an index are removed from it and those that enter are inserted. The code makes
these calls one by one while the operation runs; here all removals come first. `again` are the shapes that were taken out of an
index and put back by the operation (a body woken and put to sleep again in the same step). -/
def follow (h : Obj → Nat) (again : Nat → Bool) (s t : Sp F) (w : World F) : Option (World F) := do
  let w ← (s.dynamicShapes.filter fun o => decide (o ∉ t.dynamicShapes) || again o).foldlM (fun w o => w.remove h false o) w
  let w ← (s.staticShapes.filter fun o => decide (o ∉ t.staticShapes) || again o).foldlM (fun w o => w.remove h true o) w
  let w ← (t.dynamicShapes.filter fun o => decide (o ∉ s.dynamicShapes) || again o).foldlM (fun w o => w.insert h false o) w
  (t.staticShapes.filter fun o => decide (o ∉ s.staticShapes) || again o).foldlM (fun w o => w.insert h true o) w

end Scene

/-- What a program (and the motion of the bodies) can do. `vel` are the velocities of the shapes' bodies, used when a box is
fattened. -/
inductive SceneOp (F : Type)
  /-- Anything that changes the geometry, filters or boxes of shapes (moving bodies, setters, `Shape.Update`). -/
  | move (shapes : Nat → QShape F) (vel : Nat → Vec F)
  /-- `Constraint.SetCollideBodies`. -/
  | collideBodies (c : Nat) (on : Bool)
  /-- `Space.ReindexShape` after its `CacheBB` (a `move`). -/
  | reindex (sh : Nat)
  /-- Every other public operation except `Step`. -/
  | op (o : Sp.Op F) (again : Nat → Bool)
  /-- `Step`: the bodies move, the dynamic shapes are updated, the collision phase runs, then the rest of the step. -/
  | step (shapes : Nat → QShape F) (vel : Nat → Vec F) (answer : Nat → Nat → Sp.CollideIn) (i : Sp.StepIn F)
      (again : Nat → Bool)

namespace Scene
variable [GoFloat F]

/-- Geometry that has moved: the indexes read the boxes of the shapes when they need them. -/
def moved (sc : Scene F) (shapes : Nat → QShape F) (vel : Nat → Vec F) : Scene F :=
  { sc with shapes := shapes, index := { sc.index with box := fun o => (shapes o).shp.bb, vel := vel } }

/-- One operation. /repo/space.go:676-782 `Step`, :1134-1143 `ReindexShape` and all others through `Sp.Op.run`. -/
def run (h : Obj → Nat) (sc : Scene F) : SceneOp F → Option (Scene F)
  | .move shapes vel => some (sc.moved shapes vel)
  | .collideBodies c on => some { sc with collideBodies := Function.update sc.collideBodies c on }
  | .reindex sh => do
    let w ← sc.index.reindexObject h false sh
    let w ← w.reindexObject h true sh
    some { sc with index := w }
  | .op o again => do
    let t ← o.run sc.sp
    let w ← follow h again sc.sp t sc.index
    some { sc with sp := t, index := w }
  | .step shapes vel answer i again =>
    if i.dt = 0 then some sc
    else do
      let sc := sc.moved shapes vel
      let (w, pairs) ← sc.broadPhase answer
      let t ← sc.sp.step { i with pairs := pairs }
      let w ← follow h again sc.sp t w
      some { sc with sp := t, index := w }

end Scene
end CP
