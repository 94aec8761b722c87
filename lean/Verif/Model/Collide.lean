import Verif.Model.Shapes
import Verif.Model.Handlers

/-! # Collision detection between two shapes: /repo/collision.go, /repo/shape.go `ShapesCollide`

Pointers to shapes are modelled by values. A polygon without vertices makes Go panic (`planes[0]`), the model's `collide`
returns `none` then. -/

namespace CP
namespace Coll
open GoFloat
variable {F : Type} [GoFloat F]

/-- The class of a shape (/repo/shape.go:48-59 `Order`). -/
inductive Cls (F : Type) where
  | circle (s : Circle F)
  | seg (s : Segment F)
  | poly (s : Poly F)

/-- What the collision functions use of a shape: the class, the cached box, the rotation of the body and the hash id. -/
structure Shp (F : Type) where
  cls : Cls F
  bb : BB F
  rot : Vec F
  hashid : Word

/-- /repo/shape.go:48-59 `Order`. -/
def Cls.order : Cls F → Nat
  | .circle _ => 0
  | .seg _ => 1
  | .poly _ => 2

/-- /repo/collision.go:14-18 `SupportPoint`. -/
structure Support (F : Type) where
  p : Vec F
  index : Nat

/-- The loop of /repo/collision.go:46-59 `PolySupportPointIndex` from the vertex `i` on. -/
def supportIndexFrom (n : Vec F) : List (Plane F) → Nat → F → Nat → Nat
  | [], _, _, index => index
  | pl :: rest, i, mx, index =>
    let d := pl.v0.dot n
    if mx < d then supportIndexFrom n rest (i + 1) d i else supportIndexFrom n rest (i + 1) mx index

/-- /repo/collision.go:46-59 `PolySupportPointIndex`. -/
def supportIndex (planes : List (Plane F)) (n : Vec F) : Nat := supportIndexFrom n planes 0 (-maxFloat) 0

/-- `planes[i].v0`, `planes[i].n`. Out of range (a panic in Go) the model has zero. -/
def vert (planes : List (Plane F)) (i : Nat) : Vec F := (planes[i]?.map Plane.v0).getD ⟨0, 0⟩
def normal (planes : List (Plane F)) (i : Nat) : Vec F := (planes[i]?.map Plane.n).getD ⟨0, 0⟩

/-- /repo/collision.go:26-31 `PolySupportPoint`, `SegmentSupportPoint`, `CircleSupportPoint`: the collision functions always
pass the function that fits the class. -/
def Cls.support : Cls F → Vec F → Support F
  | .circle s, _ => ⟨s.tc, 0⟩
  | .seg s, n => if s.tb.dot n < s.ta.dot n then ⟨s.ta, 0⟩ else ⟨s.tb, 1⟩
  | .poly s, n => ⟨vert s.dst (supportIndex s.dst n), supportIndex s.dst n⟩

/-- /repo/shape.go:176-197 `Point`. -/
def Cls.point : Cls F → Nat → Support F
  | .circle s, _ => ⟨s.tc, 0⟩
  | .seg s, i => if i = 0 then ⟨s.ta, i⟩ else ⟨s.tb, i⟩
  | .poly s, i => if i < s.dst.length then ⟨vert s.dst i, i⟩ else ⟨vert s.dst 0, 0⟩

/-- /repo/collision.go:210-217 `MinkowskiPoint`. -/
structure Mink (F : Type) where
  a : Vec F
  b : Vec F
  ab : Vec F
  id : Nat

/-- /repo/collision.go:219-221 `NewMinkowskiPoint`. The bit operations `(a.index&0xFF)<<8 | (b.index & 0xFF)` on uint32 are
written with arithmetic. -/
def Mink.new (a b : Support F) : Mink F := ⟨a.p, b.p, b.p.sub a.p, a.index % 256 * 256 + b.index % 256⟩

/-- /repo/collision.go:67-71 `Support`. -/
def supportM (s1 s2 : Cls F) (n : Vec F) : Mink F := Mink.new (s1.support n.neg) (s2.support n)

/-- /repo/collision.go:73-82 `ClosestPoints`. -/
structure Closest (F : Type) where
  a : Vec F
  b : Vec F
  n : Vec F
  d : F
  id : Nat

/-- /repo/collision.go:224-251 `ClosestPoints`. -/
def Mink.closestPoints (v0 v1 : Mink F) : Closest F :=
  let t := v0.ab.closestT v1.ab
  let p := v0.ab.lerpT v1.ab t
  let pa := v0.a.lerpT v1.a t
  let pb := v0.b.lerpT v1.b t
  let id := v0.id % 65536 * 65536 + v1.id % 65536
  let delta := v1.ab.sub v0.ab
  let n := delta.rperp.normalize
  let d := n.dot p
  if d ≤ 0 ∨ (lit (-1) < t ∧ t < 1) then ⟨pa, pb, n, d, id⟩
  else
    let d2 := p.length
    let n2 := p.mult (1 / (d2 + lit (1 / 10 ^ 15)))
    ⟨pa, pb, n2, d2, id⟩

/-- How GJK or EPA came to an end (not in the code): on the axis check, on a supporting edge, or at the limit of the number
of iterations. -/
inductive Stop where
  | axis | edge | limit
  deriving DecidableEq

/-- The first loop of /repo/collision.go:426-484 `EPARecurse`: the index `mini` of the closest edge. `prev` is `hull[i]`. -/
def closestEdgeFrom (prev : Mink F) (i : Nat) : List (Mink F) → Nat → F → Nat → Nat
  | [], _, _, mini => mini
  | v :: rest, j, minDist, mini =>
    let d := prev.ab.closestDist v.ab
    if d < minDist then closestEdgeFrom v j rest (j + 1) d i else closestEdgeFrom v j rest (j + 1) minDist mini

def closestEdge (hull : List (Mink F)) (last : Mink F) : Nat :=
  closestEdgeFrom last (hull.length - 1) hull 0 maxFloat 0

/-- The loop of /repo/collision.go:458-472 that rebuilds the hull; `h0` is `hull2[count2-1]`, the list the hull from the
element after `mini` on. -/
def rebuild (p : Mink F) (h0 : Vec F) : List (Mink F) → List (Mink F)
  | [] => []
  | h1 :: rest =>
    let h2 := match rest with
      | [] => p.ab
      | h2 :: _ => h2.ab
    if h0.pointGreater h2 h1.ab then h1 :: rebuild p h1.ab rest else rebuild p h0 rest

/-- /repo/collision.go:426-484 `EPARecurse`; `left = maxEpaIterations - iteration`. The hull is a list that is never empty,
`hull[(mini + 1 + i) % count]` for `i = 0, 1, …` is the list rotated. -/
def epaRecurse (s1 s2 : Cls F) : Nat → List (Mink F) → Option (Closest F × Stop)
  | left, hull => do
    let last ← hull.getLast?
    let mini := closestEdge hull last
    let v0 ← hull[mini]?
    let v1 ← hull[(mini + 1) % hull.length]?
    let p := supportM s1 s2 (v1.ab.sub v0.ab).perp
    if ¬ (p.id = v0.id ∨ p.id = v1.id) ∧ v0.ab.pointGreater v1.ab p.ab then
      match left with
      | 0 => some (v0.closestPoints v1, .limit)
      | left + 1 =>
        epaRecurse s1 s2 left (p :: rebuild p p.ab (hull.rotate (mini + 1)))
    else some (v0.closestPoints v1, .edge)

/-- The axis `n` of /repo/collision.go:389-395 in `GJKRecurse`. -/
def gjkAxis (v0 v1 : Mink F) : Vec F :=
  let t := v0.ab.closestT v1.ab
  if lit (-1) < t ∧ t < 1 then (v1.ab.sub v0.ab).perp else (v0.ab.lerpT v1.ab t).neg

/-- /repo/collision.go:380-413 `GJKRecurse`; `left = maxGjkIterations + 1 - iteration`. `fuel` bounds the number of calls
(`none` when it runs out); `C33_terminates` shows that it does not. -/
def gjkRecurse (s1 s2 : Cls F) : Nat → Nat → Mink F → Mink F → Option (Closest F × Stop)
  | 0, _, _, _ => none
  | fuel + 1, left, v0, v1 =>
    match left with
    | 0 => some (v0.closestPoints v1, .limit)
    | left' + 1 =>
      if v1.ab.pointGreater v0.ab ⟨0, 0⟩ then gjkRecurse s1 s2 fuel (left' + 1) v1 v0
      else
        let n := gjkAxis v0 v1
        let p := supportM s1 s2 n
        if p.ab.pointGreater v0.ab ⟨0, 0⟩ ∧ v1.ab.pointGreater p.ab ⟨0, 0⟩ then
          epaRecurse s1 s2 29 [v0, p, v1]
        else if v0.ab.checkAxis v1.ab p.ab n then some (v0.closestPoints v1, .axis)
        else if v0.ab.closestDist p.ab < p.ab.closestDist v1.ab then gjkRecurse s1 s2 fuel left' v0 p
        else gjkRecurse s1 s2 fuel left' p v1

/-- The starting points of /repo/collision.go:360-377 `GJK`. -/
def gjkStart (s1 s2 : Shp F) (collisionId : Nat) : Mink F × Mink F :=
  if collisionId ≠ 0 then
    (Mink.new (s1.cls.point (collisionId / 2 ^ 24 % 256)) (s2.cls.point (collisionId / 2 ^ 16 % 256)),
      Mink.new (s1.cls.point (collisionId / 2 ^ 8 % 256)) (s2.cls.point (collisionId % 256)))
  else
    let axis := (s1.bb.center.sub s2.bb.center).perp
    (supportM s1.cls s2.cls axis, supportM s1.cls s2.cls axis.neg)

/-- /repo/collision.go:360-377 `GJK`. -/
def gjk (s1 s2 : Shp F) (collisionId : Nat) : Option (Closest F × Stop) :=
  gjkRecurse s1.cls s2.cls 62 30 (gjkStart s1 s2 collisionId).1 (gjkStart s1 s2 collisionId).2

/-- A contact: /repo/arbiter.go `Contact` (the fields set by `PushContact`). -/
structure Contact (F : Type) where
  r1 : Vec F
  r2 : Vec F
  hash : Word

/-- /repo/everything.go:113-120 `CollisionInfo`; the shapes are kept by the functions that use them. `contacts` are the first
`count` elements of `arr`. -/
structure Info (F : Type) where
  n : Vec F
  id : Nat
  contacts : List (Contact F)

/-- /repo/everything.go:122-131 `PushContact`; `arr` has MAX_CONTACTS_PER_ARBITER = 2 elements, so a third contact panics
(`none`). -/
def Info.push (i : Info F) (p1 p2 : Vec F) (hash : Word) : Option (Info F) :=
  if i.contacts.length < 2 then some { i with contacts := i.contacts ++ [⟨p1, p2, hash⟩] } else none

/-- /repo/collision.go:86-103 `CircleToCircle`. -/
def circleToCircle (c1 c2 : Circle F) (info : Info F) : Option (Info F) :=
  let mindist := c1.r + c2.r
  let delta := c2.tc.sub c1.tc
  let distsq := delta.lengthSq
  if distsq < mindist * mindist then
    let dist := sqrt distsq
    let n : Vec F := if dist ≠ 0 then delta.mult (1 / dist) else ⟨1, 0⟩
    Info.push { info with n := n } (c1.tc.add (n.mult c1.r)) (c2.tc.add (n.mult (-c2.r))) 0#64
  else some info

/-- /repo/collision.go:109-139 `CircleToSegment`. -/
def circleToSegment (circle : Circle F) (segment : Segment F) (rot : Vec F) (info : Info F) : Option (Info F) :=
  let segDelta := segment.tb.sub segment.ta
  let closestT := clamp01 (segDelta.dot (circle.tc.sub segment.ta) / segDelta.lengthSq)
  let closest := segment.ta.add (segDelta.mult closestT)
  let mindist := circle.r + segment.r
  let delta := closest.sub circle.tc
  let distsq := delta.lengthSq
  if distsq < mindist * mindist then
    let dist := sqrt distsq
    let n : Vec F := if dist ≠ 0 then delta.mult (1 / dist) else segment.tn
    let info : Info F := { info with n := n }
    if (closestT ≠ 0 ∨ 0 ≤ n.dot (segment.aTangent.rotate rot)) ∧ (closestT ≠ 1 ∨ 0 ≤ n.dot (segment.bTangent.rotate rot)) then
      info.push (circle.tc.add (n.mult circle.r)) (closest.add (n.mult (-segment.r))) 0#64
    else some info
  else some info

/-- /repo/collision.go:253-257 `EdgePoint`, `Edge`. -/
structure Edge (F : Type) where
  a : Vec F
  aHash : Word
  b : Vec F
  bHash : Word
  r : F
  n : Vec F

/-- /repo/collision.go:265-282 `SupportEdgeForSegment`. -/
def edgeOfSegment (s : Segment F) (hashid : Word) (n : Vec F) : Edge F :=
  if 0 < s.tn.dot n then ⟨s.ta, hashPair hashid 0#64, s.tb, hashPair hashid 1#64, s.r, s.tn⟩
  else ⟨s.tb, hashPair hashid 1#64, s.ta, hashPair hashid 0#64, s.r, s.tn.neg⟩

/-- /repo/collision.go:284-309 `SupportEdgeForPoly`. -/
def edgeOfPoly (s : Poly F) (hashid : Word) (n : Vec F) : Edge F :=
  let count := s.dst.length
  let i1 := supportIndex s.dst n
  let i0 := (i1 + count - 1) % count
  let i2 := (i1 + 1) % count
  if n.dot (normal s.dst i2) < n.dot (normal s.dst i1) then
    ⟨vert s.dst i0, hashPair hashid (BitVec.ofNat 64 i0), vert s.dst i1, hashPair hashid (BitVec.ofNat 64 i1), s.r, normal s.dst i1⟩
  else
    ⟨vert s.dst i1, hashPair hashid (BitVec.ofNat 64 i1), vert s.dst i2, hashPair hashid (BitVec.ofNat 64 i2), s.r, normal s.dst i2⟩

/-- /repo/collision.go:312-351 `ContactPoints`. -/
def contactPoints (e1 e2 : Edge F) (points : Closest F) (info : Info F) : Option (Info F) :=
  let mindist := e1.r + e2.r
  if mindist < points.d then some info
  else do
    let n := points.n
    let info : Info F := { info with n := n }
    let dE1A := e1.a.cross n
    let dE1B := e1.b.cross n
    let dE2A := e2.a.cross n
    let dE2B := e2.b.cross n
    let e1Denom := 1 / (dE1B - dE1A + lit (1 / 10 ^ 15))
    let e2Denom := 1 / (dE2B - dE2A + lit (1 / 10 ^ 15))
    let info ← (
      let p1 := (n.mult e1.r).add (e1.a.lerp e1.b (clamp01 ((dE2B - dE1A) * e1Denom)))
      let p2 := (n.mult (-e2.r)).add (e2.a.lerp e2.b (clamp01 ((dE1A - dE2A) * e2Denom)))
      if (p2.sub p1).dot n ≤ 0 then info.push p1 p2 (hashPair e1.aHash e2.bHash) else some info)
    let p1 := (n.mult e1.r).add (e1.a.lerp e1.b (clamp01 ((dE2A - dE1A) * e1Denom)))
    let p2 := (n.mult (-e2.r)).add (e2.a.lerp e2.b (clamp01 ((dE1B - dE2A) * e2Denom)))
    if (p2.sub p1).dot n ≤ 0 then info.push p1 p2 (hashPair e1.bHash e2.aHash) else some info

/-- `!p.Equal(end) || n.Dot(tangent.Rotate(rot)) <= 0` and `… >= 0`. -/
def capOk (p e n tangent rot : Vec F) : Bool := decide (¬ (p.x = e.x ∧ p.y = e.y) ∨ n.dot (tangent.rotate rot) ≤ 0)
def capOk' (p e n tangent rot : Vec F) : Bool := decide (¬ (p.x = e.x ∧ p.y = e.y) ∨ 0 ≤ n.dot (tangent.rotate rot))

/-- /repo/collision.go:141-162 `SegmentToSegment`, after the call of `GJK`. -/
def segmentToSegment (s1 s2 : Segment F) (rot1 rot2 : Vec F) (h1 h2 : Word) (points : Closest F) (info : Info F) :
    Option (Info F) :=
  let n := points.n
  if s1.r + s2.r < points.d then some info
  else if capOk points.a s1.ta n s1.aTangent rot1 ∧ capOk points.a s1.tb n s1.bTangent rot1 ∧
      capOk' points.b s2.ta n s2.aTangent rot2 ∧ capOk' points.b s2.tb n s2.bTangent rot2 then
    contactPoints (edgeOfSegment s1 h1 n) (edgeOfSegment s2 h2 n.neg) points info
  else some info

/-- /repo/collision.go:164-175 `CircleToPoly`, after the call of `GJK`. -/
def circleToPoly (circle : Circle F) (poly : Poly F) (points : Closest F) (info : Info F) : Option (Info F) :=
  if points.d ≤ circle.r + poly.r then
    Info.push { info with n := points.n } (points.a.add (points.n.mult circle.r)) (points.b.add (points.n.mult poly.r)) 0#64
  else some info

/-- /repo/collision.go:177-194 `SegmentToPoly`, after the call of `GJK`. -/
def segmentToPoly (segment : Segment F) (poly : Poly F) (rot : Vec F) (h1 h2 : Word) (points : Closest F) (info : Info F) :
    Option (Info F) :=
  let n := points.n
  if points.d - segment.r - poly.r ≤ 0 ∧ capOk points.a segment.ta n segment.aTangent rot ∧
      capOk points.a segment.tb n segment.bTangent rot then
    contactPoints (edgeOfSegment segment h1 n) (edgeOfPoly poly h2 n.neg) points info
  else some info

/-- /repo/collision.go:196-207 `PolyToPoly`, after the call of `GJK`. -/
def polyToPoly (poly1 poly2 : Poly F) (h1 h2 : Word) (points : Closest F) (info : Info F) : Option (Info F) :=
  if points.d - poly1.r - poly2.r ≤ 0 then
    contactPoints (edgeOfPoly poly1 h1 points.n) (edgeOfPoly poly2 h2 points.n.neg) points info
  else some info

/-- A polygon with vertices (all others panic in GJK). -/
def Cls.nonempty : Cls F → Bool
  | .poly s => !s.dst.isEmpty
  | _ => true

/-- The table /repo/collision.go:486-496 `BuiltinCollisionFuncs` for shapes in order (`none` for `CollisionError`). -/
def collideSorted (a b : Shp F) (info : Info F) : Option (Info F) :=
  match a.cls, b.cls with
  | .circle c1, .circle c2 => circleToCircle c1 c2 info
  | .circle c, .seg s => circleToSegment c s b.rot info
  | .seg s1, .seg s2 => do
    let (points, _) ← gjk a b info.id
    segmentToSegment s1 s2 a.rot b.rot a.hashid b.hashid points { info with id := points.id }
  | .circle c, .poly p => do
    if ¬ b.cls.nonempty then none else
    let (points, _) ← gjk a b info.id
    circleToPoly c p points { info with id := points.id }
  | .seg s, .poly p => do
    if ¬ b.cls.nonempty then none else
    let (points, _) ← gjk a b info.id
    segmentToPoly s p a.rot a.hashid b.hashid points { info with id := points.id }
  | .poly p1, .poly p2 => do
    if ¬ (a.cls.nonempty ∧ b.cls.nonempty) then none else
    let (points, _) ← gjk a b info.id
    polyToPoly p1 p2 a.hashid b.hashid points { info with id := points.id }
  | _, _ => none

/-- /repo/collision.go:499-518 `Collide`: whether the shapes were swapped, and the result. -/
def collide (a b : Shp F) (id : Nat) : Option (Bool × Info F) :=
  let info : Info F := ⟨⟨0, 0⟩, id, []⟩
  if b.cls.order < a.cls.order then (collideSorted b a info).map fun i => (true, i)
  else (collideSorted a b info).map fun i => (false, i)

/-- /repo/arbiter.go:457-471 `ContactPointSet`; `Count` is the length of the list. -/
structure SetPoint (F : Type) where
  pointA : Vec F
  pointB : Vec F
  distance : F
structure ContactSet (F : Type) where
  normal : Vec F
  points : List (SetPoint F)

/-- /repo/shape.go:241-271 `ShapesCollide`. `a != info.a` is the comparison of pointers, so for `a == b` never swapped. -/
def shapesCollide (a b : Shp F) : Option (ContactSet F) :=
  (collide a b 0).map fun (swapped, info) =>
    let normal := if swapped then info.n.neg else info.n
    { normal := normal
      points := info.contacts.map fun c =>
        { pointA := if swapped then c.r2 else c.r1
          pointB := if swapped then c.r1 else c.r2
          distance := (c.r2.sub c.r1).dot normal } }

end Coll
end CP
