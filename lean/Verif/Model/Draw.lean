import Verif.Model.Sim

/-! # Drawing: /repo/draw.go

The model is the list of the calls of the `Drawer`. Simplification: colours, the data of the drawer and the count of the corners are left out (the first two are what the
drawer's own functions return); each call carries the number of the shape, constraint or arbiter it is made for. Go's panics for unknown types cannot happen. -/

namespace CP
open GoFloat Coll
variable {F : Type} [GoFloat F]

/-- /repo/draw.go:17-29 the drawing functions of `Drawer`. -/
inductive DrawCall (F : Type) where
  | circle (pos : Vec F) (angle radius : F)
  | segment (a b : Vec F)
  | fatSegment (a b : Vec F) (radius : F)
  | polygon (verts : List (Vec F)) (radius : F)
  | dot (size : F) (pos : Vec F)

/-- /repo/draw.go:32-60 `DrawShape`: the call for a shape on a body with the angle `angle`. -/
def drawShape (angle : F) : Cls F → DrawCall F
  | .circle c => .circle c.tc angle c.r
  | .seg s => .fatSegment s.ta s.tb s.r
  | .poly p => .polygon (p.dst.map fun pl => pl.v0) p.r

/-- /repo/draw.go:62-78 `springVerts`. -/
def springVerts : List (Vec F) :=
  [(0, 0), (20, 0), (25, 3), (30, -6), (35, 6), (40, -6), (45, 6), (50, -6), (55, 6), (60, -6), (65, 6), (70, -3), (75, 6), (80, 0), (100, 0)].map
    fun (p : Rat × Rat) => ⟨lit (p.1 / 100), lit p.2⟩

/-- /repo/draw.go:145-147 the lines between neighbours. -/
def polyline : List (Vec F) → List (DrawCall F)
  | a :: b :: l => .segment a b :: polyline (b :: l)
  | _ => []

/-- /repo/draw.go:131-143 the corners of the zigzag of a spring from `a` to `b`. -/
def springLine (a b : Vec F) : List (Vec F) :=
  let delta := b.sub a
  let cos := delta.x
  let sin := delta.y
  let s := 1 / delta.length
  let r1 : Vec F := ⟨cos, -sin * s⟩
  let r2 : Vec F := ⟨sin, cos * s⟩
  springVerts.map fun v => ⟨v.dot r1 + a.x, v.dot r2 + a.y⟩

/-- /repo/draw.go:80-157 `DrawConstraint`. -/
def drawJoint (h : Bodies F) : Joint F → List (DrawCall F)
  | .pin j =>
    let a := (h j.a).transform.point j.anchorA
    let b := (h j.b).transform.point j.anchorB
    [.dot (lit 5) a, .dot (lit 5) b, .segment a b]
  | .slide j =>
    let a := (h j.a).transform.point j.anchorA
    let b := (h j.b).transform.point j.anchorB
    [.dot (lit 5) a, .dot (lit 5) b, .segment a b]
  | .pivot j =>
    let a := (h j.a).transform.point j.anchorA
    let b := (h j.b).transform.point j.anchorB
    [.dot (lit 5) a, .dot (lit 5) b]
  | .groove j =>
    let a := (h j.a).transform.point j.grooveA
    let b := (h j.a).transform.point j.grooveB
    let c := (h j.b).transform.point j.anchorB
    [.dot (lit 5) c, .segment a b]
  | .spring j =>
    let a := (h j.a).transform.point j.anchorA
    let b := (h j.b).transform.point j.anchorB
    [.dot (lit 5) a, .dot (lit 5) b] ++ polyline (springLine a b)
  | _ => []

/-- /repo/draw.go:174-185 the dashes at the contacts of an arbiter. -/
def drawContacts (h : Bodies F) (arb : Arb F) : List (DrawCall F) :=
  arb.contacts.map fun c =>
    .segment (((h arb.a).p.add c.r1).add (arb.n.mult (lit (-2)))) (((h arb.b).p.add c.r2).add (arb.n.mult (lit 2)))

/-- /repo/draw.go:160-165 the shapes that `DrawSpace` draws, in this order: the dynamic index, then the static one. -/
def Sim.drawn (s : Sim F) : List Nat := s.sc.index.each false ++ s.sc.index.each true

/-- /repo/draw.go:159-186 `DrawSpace`: what is drawn for the shapes, the constraints, the contacts. -/
def Sim.draw (s : Sim F) : List (Nat × DrawCall F) × List (Nat × List (DrawCall F)) × List (Nat × List (DrawCall F)) :=
  (s.drawn.map fun x => (x, drawShape (s.mo.bodies (s.sc.sp.shapes x).body).a (s.sc.shapes x).shp.cls),
   s.sc.sp.constraints.map fun c => (c, drawJoint s.mo.bodies (s.mo.joints c)),
   s.sc.sp.arbiters.map fun k => (k, drawContacts s.mo.bodies (s.arbs k)))

end CP
