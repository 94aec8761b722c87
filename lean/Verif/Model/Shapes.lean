import Verif.Model.BB

/-! # Shapes: /repo/circle.go, /repo/segment.go, /repo/poly.go, /repo/shape.go (geometry only)

The pointer `info.Shape` is modelled by a flag `hit` (`info.Shape != nil`): the queries only ever store the queried
shape there. Mass information is modelled in `Model/Mass.lean`, the body in `Model/Body.lean`. Where Go divides zero by
zero (a NaN) the model has the value of `F`; theorems exclude these cases by hypothesis. -/

namespace CP
open GoFloat
variable {F : Type} [GoFloat F]

/-- /repo/everything.go:10 MAGIC_EPSILON. -/
def magicEpsilon : F := lit (1 / 100000)

/-- /repo/everything.go:140-150 `PointQueryInfo` (without the shape). -/
structure PointInfo (F : Type) where
  point : Vec F
  distance : F
  gradient : Vec F


/-- /repo/everything.go:153-162 `SegmentQueryInfo`. -/
structure SegHit (F : Type) where
  hit : Bool
  point : Vec F
  normal : Vec F
  alpha : F


/-- The blank `SegmentQueryInfo{nil, b, Vector{}, 1}` (/repo/shape.go:206, /repo/segment.go:147-148, /repo/poly.go:150). -/
def SegHit.blank (b : Vec F) : SegHit F := ⟨false, b, ⟨0, 0⟩, 1⟩

/-- /repo/circle.go:72-92 `CircleSegmentQuery`: the new value of `*info`. -/
def circleSegmentQuery (center : Vec F) (r1 : F) (a b : Vec F) (r2 : F) (info : SegHit F) : SegHit F :=
  let da := a.sub center
  let db := b.sub center
  let rsum := r1 + r2
  let qa := da.dot da - lit 2 * da.dot db + db.dot db
  let qb := da.dot db - da.dot da
  let det := qb * qb - qa * (da.dot da - rsum * rsum)
  if 0 ≤ det then
    let t := (-qb - sqrt det) / qa
    if 0 ≤ t ∧ t ≤ 1 then
      let n := (da.lerp db t).normalize
      ⟨true, (a.lerp b t).sub (n.mult r2), n, t⟩
    else info
  else info

/-- /repo/circle.go:5-9 `Circle`. -/
structure Circle (F : Type) where
  c : Vec F
  tc : Vec F
  r : F

namespace Circle
/-- /repo/circle.go:11-18 `NewCircle` (`tc` is the zero vector until the first update). -/
def new (radius : F) (offset : Vec F) : Circle F := ⟨offset, ⟨0, 0⟩, radius⟩
/-- /repo/circle.go:29-32 `CacheData`. -/
def cacheData (s : Circle F) (t : Transform F) : Circle F × BB F :=
  let s := { s with tc := t.point s.c }
  (s, BB.forCircle s.tc s.r)
/-- /repo/circle.go:52-66 `PointQuery`. -/
def pointQuery (s : Circle F) (p : Vec F) : PointInfo F :=
  let delta := p.sub s.tc
  let d := delta.length
  let r := s.r
  { point := s.tc.add (delta.mult (r / d))
    distance := d - r
    gradient := if magicEpsilon < d then delta.mult (1 / d) else ⟨0, 1⟩ }
/-- /repo/circle.go:68-70 `SegmentQuery`. -/
def segmentQuery (s : Circle F) (a b : Vec F) (radius : F) (info : SegHit F) : SegHit F :=
  circleSegmentQuery s.tc s.r a b radius info
end Circle

/-- /repo/segment.go:3-11 `Segment`. -/
structure Segment (F : Type) where
  a : Vec F
  b : Vec F
  n : Vec F
  ta : Vec F
  tb : Vec F
  tn : Vec F
  r : F
  aTangent : Vec F
  bTangent : Vec F

namespace Segment
/-- /repo/segment.go:160-172 `NewSegment`. -/
def new (a b : Vec F) (r : F) : Segment F :=
  ⟨a, b, (b.sub a).normalize.rperp, ⟨0, 0⟩, ⟨0, 0⟩, ⟨0, 0⟩, r, ⟨0, 0⟩, ⟨0, 0⟩⟩
/-- /repo/segment.go:62-72 `SetEndpoints` (mass is modelled elsewhere). -/
def setEndpoints (s : Segment F) (a b : Vec F) : Segment F :=
  { s with a := a, b := b, n := (b.sub a).normalize.perp }
/-- /repo/segment.go:13-38 `CacheData`. -/
def cacheData (s : Segment F) (t : Transform F) : Segment F × BB F :=
  let s := { s with ta := t.point s.a, tb := t.point s.b, tn := t.vect s.n }
  let lr := if s.ta.x < s.tb.x then (s.ta.x, s.tb.x) else (s.tb.x, s.ta.x)
  let bt := if s.ta.y < s.tb.y then (s.ta.y, s.tb.y) else (s.tb.y, s.ta.y)
  (s, ⟨lr.1 - s.r, bt.1 - s.r, lr.2 + s.r, bt.2 + s.r⟩)
/-- /repo/segment.go:86-108 `PointQuery`. -/
def pointQuery (s : Segment F) (p : Vec F) : PointInfo F :=
  let closest := p.closestPointOnSegment s.ta s.tb
  let delta := p.sub closest
  let d := delta.length
  let r := s.r
  let g := delta.mult (1 / d)
  { point := if d ≠ 0 then closest.add (g.mult r) else closest
    distance := d - r
    gradient := if magicEpsilon < d then g else s.n }
/-- /repo/segment.go:110-158 `SegmentQuery`. -/
def segmentQuery (s : Segment F) (a b : Vec F) (r2 : F) (info : SegHit F) : SegHit F :=
  let n := s.tn
  let d := (s.ta.sub a).dot n
  let r := s.r + r2
  let flippedN := if 0 < d then n.neg else n
  let segOffset := (flippedN.mult r).sub a
  let segA := s.ta.add segOffset
  let segB := s.tb.add segOffset
  let delta := b.sub a
  if delta.cross segA * delta.cross segB ≤ 0 then
    let dOffset := if 0 < d then d - r else d + r
    let ad := -dOffset
    let bd := delta.dot n - dOffset
    if ad * bd < 0 then
      let t := ad / (ad - bd)
      ⟨true, (a.lerp b t).sub (flippedN.mult r2), flippedN, t⟩
    else info
  else if r ≠ 0 then
    let info1 := circleSegmentQuery s.ta s.r a b r2 (SegHit.blank b)
    let info2 := circleSegmentQuery s.tb s.r a b r2 (SegHit.blank b)
    if info1.alpha < info2.alpha then info1 else info2
  else info
end Segment

/-- `SplittingPlane` (/repo/everything.go:164-166). -/
structure Plane (F : Type) where
  v0 : Vec F
  n : Vec F

/-- /repo/poly.go:5-14 `PolyShape`: `planes` is split into its two halves, the transformed ones and the originals. -/
structure Poly (F : Type) where
  r : F
  dst : List (Plane F)
  src : List (Plane F)

namespace Poly
/-- The planes of /repo/poly.go:208-215: the edge from the previous vertex to each vertex. -/
def edgePlanes (prev : Vec F) : List (Vec F) → List (Plane F)
  | [] => []
  | b :: rest => ⟨b, (b.sub prev).rperp.normalize⟩ :: edgePlanes b rest
/-- /repo/poly.go:204-216 `SetVerts`, and the first half of /repo/poly.go:170-179 `NewPolyShapeRaw`. The transformed half is
zero until the first update. -/
def setVerts (s : Poly F) (verts : List (Vec F)) : Poly F :=
  match verts.getLast? with
  | none => { s with dst := [], src := [] }
  | some prev => { s with dst := verts.map fun _ => ⟨⟨0, 0⟩, ⟨0, 0⟩⟩, src := edgePlanes prev verts }
/-- /repo/poly.go:170-179 `NewPolyShapeRaw`. -/
def new (verts : List (Vec F)) (radius : F) : Poly F := setVerts ⟨radius, [], []⟩ verts
/-- /repo/poly.go:38-64 `CacheData`. -/
def cacheData (s : Poly F) (t : Transform F) : Poly F × BB F :=
  let dst := s.src.map fun p => (⟨t.point p.v0, t.vect p.n⟩ : Plane F)
  let bb := dst.foldl (fun (bb : BB F) p => ⟨min bb.l p.v0.x, min bb.b p.v0.y, max bb.r p.v0.x, max bb.t p.v0.y⟩)
    ⟨maxFloat, maxFloat, -maxFloat, -maxFloat⟩
  ({ s with dst := dst }, ⟨bb.l - s.r, bb.b - s.r, bb.r + s.r, bb.t + s.r⟩)

/-- The variables of the loop of `PointQuery` (/repo/poly.go:71-75). -/
structure PQState (F : Type) where
  v0 : Vec F
  minDist : F
  closestPoint : Vec F
  closestNormal : Vec F
  outside : Bool

/-- The body of the loop of `PointQuery` (/repo/poly.go:77-93). -/
def pqStep (p : Vec F) (st : PQState F) (pl : Plane F) : PQState F :=
  let v1 := pl.v0
  let outside := if st.outside then true else decide (0 < pl.n.dot (p.sub v1))
  let closest := p.closestPointOnSegment st.v0 v1
  let dist := p.distance closest
  if dist < st.minDist then ⟨v1, dist, closest, pl.n, outside⟩
  else { st with v0 := v1, outside := outside }

/-- /repo/poly.go:66-112 `PointQuery`; with no vertices Go panics (`planes[-1]`). -/
def pointQuery (s : Poly F) (p : Vec F) : Option (PointInfo F) := do
  let last ← s.dst.getLast?
  let st := s.dst.foldl (pqStep p) ⟨last.v0, maxFloat, ⟨0, 0⟩, ⟨0, 0⟩, false⟩
  let dist := if st.outside then st.minDist else -st.minDist
  let g := (p.sub st.closestPoint).mult (1 / dist)
  some { point := st.closestPoint.add (g.mult s.r)
         distance := dist - s.r
         gradient := if magicEpsilon < st.minDist then g else st.closestNormal }

/-- The first loop of `SegmentQuery` (/repo/poly.go:120-145), `prev` is the vertex before. If `an = bn` (the ray is parallel
to the edge), `t` is `+Inf` in Go if `0 < d` and `NaN` if `d = 0`, and the edge is not hit in both cases. -/
def sqEdges (a b : Vec F) (r2 rsum : F) (prev : Vec F) (info : SegHit F) : List (Plane F) → SegHit F
  | [] => info
  | pl :: rest =>
    let n := pl.n
    let an := a.dot n
    let d := an - pl.v0.dot n - rsum
    let info := if d < 0 then info else
      let bn := b.dot n
      if an = bn then info else
      let t := d / (an - bn)
      if t < 0 ∨ 1 < t then info else
        let point := a.lerp b t
        let dt := n.cross point
        let dtMin := n.cross prev
        let dtMax := n.cross pl.v0
        if dtMin ≤ dt ∧ dt ≤ dtMax then ⟨true, (a.lerp b t).sub (n.mult r2), n, t⟩ else info
    sqEdges a b r2 rsum pl.v0 info rest

/-- /repo/poly.go:114-157 `SegmentQuery`. -/
def segmentQuery (s : Poly F) (a b : Vec F) (r2 : F) (info : SegHit F) : SegHit F :=
  match s.dst.getLast? with
  | none => info
  | some last =>
    let rsum := s.r + r2
    let info := sqEdges a b r2 rsum last.v0 info s.dst
    if 0 < rsum then
      s.dst.foldl (fun info pl =>
        let circleInfo := circleSegmentQuery pl.v0 s.r a b r2 (SegHit.blank b)
        if circleInfo.alpha < info.alpha then circleInfo else info) info
    else info
end Poly

/-- /repo/shape.go:205-224 `Shape.SegmentQuery`, from the results of the two queries of the class. The return value is
`hit`. -/
def shapeSegmentQuery (nearest : PointInfo F) (classQuery : SegHit F → SegHit F) (a b : Vec F) (radius : F) : SegHit F :=
  let blank := SegHit.blank b
  if nearest.distance ≤ radius then
    { blank with hit := true, alpha := 0, normal := (a.sub nearest.point).normalize }
  else classQuery blank

end CP
