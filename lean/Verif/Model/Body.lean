import Verif.Model.BB

/-! # Rigid bodies (/repo/body.go, the parts that do not touch the space; /repo/shape.go mass setters) -/

namespace CP

/-- /repo/body.go:9-13 the body types, as returned by `GetType`. -/
inductive BodyType
  | dynamic | kinematic | static
deriving DecidableEq, Repr

/-- /repo/everything.go:134-137 `ShapeMassInfo`. -/
structure MassInfo (F : Type) where
  m : F
  i : F
  cog : Vec F
  area : F

/-- A shape as its body sees it: its identity (pointer) and its mass information.
Models /repo/shape.go:25-42 `Shape` restricted to the `massInfo` field. -/
structure BShape (F : Type) where
  id : Nat
  info : MassInfo F

/-- /repo/body.go:23-65 `Body`, without the space, arbiter, constraint and sleeping-list pointers
(modelled in Model/Space.lean), the user data, and the replaceable integration functions
(the default ones are modelled). `idle` is `sleepingIdleTime`. -/
structure Body (F : Type) where
  m : F
  m_inv : F
  i : F
  i_inv : F
  cog : Vec F
  p : Vec F
  v : Vec F
  f : Vec F
  a : F
  w : F
  t : F
  transform : Transform F
  v_bias : Vec F
  w_bias : F
  shapes : List (BShape F)
  idle : F

namespace Body
variable {F : Type} [GoFloat F]
open GoFloat

/-- The Go zero value `Vector{}`. -/
def zeroV : Vec F := ⟨0, 0⟩

/-- /repo/body.go:226-234 `GetType`. -/
def type (b : Body F) : BodyType :=
  if b.idle = maxFloat then .static else if b.m = maxFloat then .kinematic else .dynamic

/-- The effect of /repo/body.go:375-419 `Activate` on the body's own fields (waking the sleeping
component and the neighbours' idle timers are modelled in Model/Space.lean). -/
def activate (b : Body F) : Body F := if b.type = .dynamic then { b with idle := 0 } else b

/-- /repo/body.go:364-372 `SetTransform`. -/
def setTransform (b : Body F) (p : Vec F) (a : F) : Body F :=
  let rot : Vec F := ⟨cos a, sin a⟩
  let c := b.cog
  let tr := Transform.transpose
    rot.x (-rot.y) (p.x - (c.x * rot.x - c.y * rot.y))
    rot.y rot.x (p.y - (c.x * rot.y + c.y * rot.x))
  { b with transform := tr }

/-- /repo/body.go:111-115 `SetAngle`. -/
def setAngle (b : Body F) (angle : F) : Body F :=
  let b := b.activate
  let b := { b with a := angle }
  b.setTransform b.p angle

/-- /repo/body.go:123-127 `SetMoment`. -/
def setMoment (b : Body F) (moment : F) : Body F :=
  { b.activate with i := moment, i_inv := 1 / moment }

/-- /repo/body.go:135-139 `SetMass`. -/
def setMass (b : Body F) (mass : F) : Body F :=
  { b.activate with m := mass, m_inv := 1 / mass }

/-- /repo/body.go:285-287 `Position`. -/
def position (b : Body F) : Vec F := b.transform.point zeroV

/-- /repo/body.go:290-294 `SetPosition`. -/
def setPosition (b : Body F) (position : Vec F) : Body F :=
  let b := b.activate
  let b := { b with p := (b.transform.vect b.cog).add position }
  b.setTransform b.p b.a

/-- One iteration of the loop at /repo/body.go:249-259. -/
def accumStep (b : Body F) (s : BShape F) : Body F :=
  let info := s.info
  let m := info.m
  if 0 < m then
    let msum := b.m + m
    let b := { b with i := b.i + (m * info.i + b.cog.distanceSq info.cog * (m * b.m) / msum) }
    let b := { b with cog := b.cog.lerp info.cog (m / msum) }
    { b with m := msum }
  else b

/-- /repo/body.go:237-265 `AccumulateMassFromShapes`. -/
def accumulateMass (b : Body F) : Body F :=
  if b.type ≠ .dynamic then b
  else
    let b := { b with m := 0, i := 0, cog := zeroV }
    let pos := b.position
    let b := b.shapes.foldl accumStep b
    let b := { b with m_inv := 1 / b.m, i_inv := 1 / b.i }
    b.setPosition pos

/-- /repo/body.go:147-223 `SetType` for a body without a space (the list moves and the spatial
indexes are modelled in Model/Space.lean). -/
def setType (b : Body F) (newType : BodyType) : Body F :=
  if b.type = newType then b
  else
    let b := if newType = .static then { b with idle := maxFloat } else { b with idle := 0 }
    if newType = .dynamic then
      let b := { b with m := 0, i := 0, m_inv := maxFloat, i_inv := maxFloat }
      b.accumulateMass
    else
      { b with m := maxFloat, i := maxFloat, m_inv := 0, i_inv := 0, v := zeroV, w := 0 }

/-- /repo/body.go:75-94 `NewBody`. -/
def new (mass moment : F) : Body F :=
  let b : Body F :=
    { m := 0, m_inv := 0, i := 0, i_inv := 0, cog := zeroV, p := zeroV, v := zeroV, f := zeroV,
      a := 0, w := 0, t := 0, transform := Transform.identity, v_bias := zeroV, w_bias := 0,
      shapes := [], idle := 0 }
  ((b.setMass mass).setMoment moment).setAngle 0

/-- /repo/body.go:97-101 `NewStaticBody`. -/
def newStatic : Body F := (new 0 0).setType .static
/-- /repo/body.go:104-108 `NewKinematicBody`. -/
def newKinematic : Body F := (new 0 0).setType .kinematic

/-- /repo/body.go:280-282 `Rotation`. -/
def rotation (b : Body F) : Vec F := ⟨b.transform.a, b.transform.b⟩
/-- /repo/body.go:273-275 `Angle`. -/
def angle (b : Body F) : F := b.a
/-- /repo/body.go:268-270 `CenterOfGravity`. -/
def centerOfGravity (b : Body F) : Vec F := b.cog

/-- /repo/body.go:304-307 `SetVelocity`, `SetVelocityVector`. -/
def setVelocity (b : Body F) (v : Vec F) : Body F := { b.activate with v := v }
/-- /repo/body.go:358-361 `SetAngularVelocity`. -/
def setAngularVelocity (b : Body F) (w : F) : Body F := { b.activate with w := w }
/-- /repo/body.go:336-339 `SetForce`. -/
def setForce (b : Body F) (f : Vec F) : Body F := { b.activate with f := f }
/-- /repo/body.go:347-350 `SetTorque`. -/
def setTorque (b : Body F) (t : F) : Body F := { b.activate with t := t }

/-- /repo/body.go:442-448 `AddShape`. -/
def addShape (b : Body F) (s : BShape F) : Body F :=
  let b := { b with shapes := b.shapes ++ [s] }
  if 0 < s.info.m then b.accumulateMass else b

/-- The slice surgery of /repo/body.go:554-563: the first occurrence of the shape is overwritten by
the last element and the last slot is dropped. -/
def swapRemove (l : List (BShape F)) (id : Nat) : List (BShape F) :=
  match l.findIdx? (fun s => s.id == id), l.getLast? with
  | some k, some last => (l.set k last).dropLast
  | _, _ => l

/-- /repo/body.go:553-567 `RemoveShape`. -/
def removeShape (b : Body F) (s : BShape F) : Body F :=
  let b := { b with shapes := swapRemove b.shapes s.id }
  if b.type = .dynamic ∧ 0 < s.info.m then b.accumulateMass else b

/-- /repo/shape.go:86-91 `Shape.SetMass` of the shape with identity `id` of this body
(the `massInfo` pointer is shared, so the entry in the body's list changes). -/
def setShapeMass (b : Body F) (id : Nat) (mass : F) : Body F :=
  let b := b.activate
  let b := { b with shapes := b.shapes.map fun (s : BShape F) =>
    if s.id = id then { s with info := { s.info with m := mass } } else s }
  b.accumulateMass

/-- /repo/body.go:493-495 `WorldToLocal`. -/
def worldToLocal (b : Body F) (pt : Vec F) : Vec F := b.transform.rigidInverse.point pt
/-- /repo/body.go:500-502 `LocalToWorld`. -/
def localToWorld (b : Body F) (pt : Vec F) : Vec F := b.transform.point pt

/-- /repo/arbiter.go:338-342 `apply_impulse`. -/
def applyImpulse (b : Body F) (j r : Vec F) : Body F :=
  { b with v := ⟨b.v.x + j.x * b.m_inv, b.v.y + j.y * b.m_inv⟩, w := b.w + b.i_inv * r.cross j }

/-- /repo/body.go:505-511 `ApplyForceAtWorldPoint`. -/
def applyForceAtWorldPoint (b : Body F) (force point : Vec F) : Body F :=
  let b := b.activate
  let b := { b with f := b.f.add force }
  let r := point.sub (b.transform.point b.cog);
  { b with t := b.t + r.cross force }
/-- /repo/body.go:514-516 `ApplyForceAtLocalPoint`. -/
def applyForceAtLocalPoint (b : Body F) (force point : Vec F) : Body F :=
  b.applyForceAtWorldPoint (b.transform.vect force) (b.transform.point point)
/-- /repo/body.go:519-524 `ApplyImpulseAtWorldPoint`. -/
def applyImpulseAtWorldPoint (b : Body F) (impulse point : Vec F) : Body F :=
  let b := b.activate
  let r := point.sub (b.transform.point b.cog)
  b.applyImpulse impulse r
/-- /repo/body.go:527-529 `ApplyImpulseAtLocalPoint`. -/
def applyImpulseAtLocalPoint (b : Body F) (impulse point : Vec F) : Body F :=
  b.applyImpulseAtWorldPoint (b.transform.vect impulse) (b.transform.point point)
/-- /repo/body.go:534-537 `VelocityAtLocalPoint`. -/
def velocityAtLocalPoint (b : Body F) (point : Vec F) : Vec F :=
  let r := b.transform.vect (point.sub b.cog)
  b.v.add (r.perp.mult b.w)
/-- /repo/body.go:542-545 `VelocityAtWorldPoint`. -/
def velocityAtWorldPoint (b : Body F) (point : Vec F) : Vec F :=
  let r := point.sub (b.transform.point b.cog)
  b.v.add (r.perp.mult b.w)

/-- /repo/body.go:623-633 `BodyUpdateVelocity` (and :320-331 `UpdateVelocity`, which adds an assert). -/
def updateVelocity (b : Body F) (gravity : Vec F) (damping dt : F) : Body F :=
  if b.type = .kinematic then b
  else
    { b with
      v := (b.v.mult damping).add ((gravity.add (b.f.mult b.m_inv)).mult dt)
      w := b.w * damping + b.t * b.i_inv * dt
      f := zeroV
      t := 0 }

/-- /repo/body.go:636-643 `BodyUpdatePosition`. -/
def updatePosition (b : Body F) (dt : F) : Body F :=
  let b := { b with p := b.p.add ((b.v.add b.v_bias).mult dt) }
  let b := { b with a := b.a + (b.w + b.w_bias) * dt }
  let b := b.setTransform b.p b.a
  { b with v_bias := zeroV, w_bias := 0 }

/-- /repo/body.go:451-463 `KineticEnergy`. -/
def kineticEnergy (b : Body F) : F :=
  let vsq := b.v.dot b.v
  let wsq := b.w * b.w
  let ea := if vsq ≠ 0 then vsq * b.m else 0
  let eb := if wsq ≠ 0 then wsq * b.i else 0
  ea + eb

end Body
end CP
