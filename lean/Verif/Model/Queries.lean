import Verif.Model.BBTree
import Verif.Model.Collide
import Verif.Model.Handlers

/-! # Queries of the space: /repo/space.go `PointQueryNearest`, `BBQuery`, `ShapeQuery`

The two indexes are the `World` of `Model/BBTree.lean`; here the shapes behind the objects are visible too. Callbacks run
while the space is locked, so they cannot change the indexes (`Model/Space.lean`); their calls are returned as a list. -/

namespace CP
open GoFloat Coll
variable {F : Type} [GoFloat F]

/-- What the queries read of a shape: geometry (`Class`, `bb`), `Filter`, `sensor` (/repo/shape.go:25-42 `Shape`). -/
structure QShape (F : Type) where
  shp : Shp F
  filter : ShapeFilter
  sensor : Bool

/-- /repo/shape.go:199-203 `Shape.PointQuery`: the query of the class (`none`: panic, a polygon without vertices). -/
def Coll.Cls.pointQuery : Cls F → Vec F → Option (PointInfo F)
  | .circle s, p => some (s.pointQuery p)
  | .seg s, p => some (s.pointQuery p)
  | .poly s, p => s.pointQuery p

/-- /repo/shape.go:171-174 `Shape.Update`: `CacheData` of the class. -/
def Coll.Cls.cacheData : Cls F → Transform F → Cls F × BB F
  | .circle s, t => (.circle (s.cacheData t).1, (s.cacheData t).2)
  | .seg s, t => (.seg (s.cacheData t).1, (s.cacheData t).2)
  | .poly s, t => (.poly (s.cacheData t).1, (s.cacheData t).2)

/-- /repo/space.go:962-973 `NearestPointQueryNearest`; `*out` is the shape found so far and its information. -/
def nearestStep (shapes : Obj → QShape F) (p : Vec F) (filter : ShapeFilter) (out : Option Obj × PointInfo F) (o : Obj) :
    Option (Option Obj × PointInfo F) :=
  if (shapes o).filter.reject filter = false ∧ (shapes o).sensor = false then
    ((shapes o).shp.cls.pointQuery p).map fun info => if info.distance < out.2.distance then (some o, info) else out
  else some out

/-- /repo/space.go:951-960 `Space.PointQueryNearest`. -/
def World.pointQueryNearest (w : World F) (shapes : Obj → QShape F) (p : Vec F) (maxDistance : F) (filter : ShapeFilter) :
    Option (Option Obj × PointInfo F) :=
  let bb := BB.forCircle p (max maxDistance 0)
  (List.foldlM (nearestStep shapes p filter) (none, ⟨⟨0, 0⟩, maxDistance, ⟨0, 0⟩⟩) (queryRoot w.dyn bb)).bind fun r =>
    List.foldlM (nearestStep shapes p filter) r (queryRoot w.stat bb)

/-- /repo/space.go:991-999 `Space.BBQuery` and :983-989 `bbQuery`: the calls of the user's function, in order. -/
def World.bbQuery (w : World F) (shapes : Obj → QShape F) (bb : BB F) (filter : ShapeFilter) : List Obj :=
  let ask := fun o => !(shapes o).filter.reject filter && (shapes o).shp.bb.intersects bb
  (queryRoot w.stat bb).filter ask ++ (queryRoot w.dyn bb).filter ask

/-- /repo/space.go:1106-1121 the function `shapeQuery` inside `ShapeQuery`: the calls so far and `anyCollision`. `self` is the
shape itself if it is in the space. -/
def shapeQueryStep (shapes : Obj → QShape F) (a : QShape F) (self : Option Obj)
    (st : List (Obj × ContactSet F) × Bool) (o : Obj) : Option (List (Obj × ContactSet F) × Bool) :=
  if a.filter.reject (shapes o).filter = true ∨ self = some o then some st
  else
    (shapesCollide a.shp (shapes o).shp).map fun set =>
      if set.points = [] then st else (st.1 ++ [(o, set)], !(a.sensor || (shapes o).sensor))

/-- /repo/space.go:1096-1102 the shape as `ShapeQuery` uses it: updated if it has a body (`t` is the transform of the body). -/
def QShape.fresh (a : QShape F) (t : Option (Transform F)) : QShape F :=
  match t with
  | none => a
  | some t => { a with shp := { a.shp with cls := (a.shp.cls.cacheData t).1, bb := (a.shp.cls.cacheData t).2 } }

/-- /repo/space.go:1095-1131 `Space.ShapeQuery`: the calls of the callback, in order, and the result. -/
def World.shapeQuery (w : World F) (shapes : Obj → QShape F) (a : QShape F) (t : Option (Transform F)) (self : Option Obj) :
    Option (List (Obj × ContactSet F) × Bool) :=
  let a := a.fresh t
  (List.foldlM (shapeQueryStep shapes a self) ([], false) (queryRoot w.dyn a.shp.bb)).bind fun r =>
    List.foldlM (shapeQueryStep shapes a self) r (queryRoot w.stat a.shp.bb)

end CP
