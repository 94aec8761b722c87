import Verif.Model.Vec

/-! # Bounding boxes and transforms (/repo/bb.go, /repo/transform.go) -/

namespace CP

/-- /repo/bb.go:9-11 `BB`. -/
@[ext] structure BB (F : Type) where
  l : F
  b : F
  r : F
  t : F
deriving DecidableEq

namespace BB
variable {F : Type} [GoFloat F]
open GoFloat

/-- /repo/bb.go:28-35 `NewBBForExtents`. -/
def forExtents (c : Vec F) (hw hh : F) : BB F := ⟨c.x - hw, c.y - hh, c.x + hw, c.y + hh⟩
/-- /repo/bb.go:38-40 `NewBBForCircle`. -/
def forCircle (p : Vec F) (r : F) : BB F := forExtents p r r
/-- /repo/bb.go:43-45 `Intersects`. -/
def intersects (a b : BB F) : Bool :=
  decide (a.l ≤ b.r) && decide (b.l ≤ a.r) && decide (a.b ≤ b.t) && decide (b.b ≤ a.t)
/-- /repo/bb.go:48-50 `Contains`. -/
def contains (a o : BB F) : Bool :=
  decide (a.l ≤ o.l) && decide (o.r ≤ a.r) && decide (a.b ≤ o.b) && decide (o.t ≤ a.t)
/-- /repo/bb.go:53-55 `ContainsVect`. -/
def containsVect (a : BB F) (v : Vec F) : Bool :=
  decide (a.l ≤ v.x) && decide (v.x ≤ a.r) && decide (a.b ≤ v.y) && decide (v.y ≤ a.t)
/-- /repo/bb.go:58-65 `Merge`. -/
def merge (a b : BB F) : BB F := ⟨min a.l b.l, min a.b b.b, max a.r b.r, max a.t b.t⟩
/-- /repo/bb.go:68-75 `Expand`. -/
def expand (a : BB F) (v : Vec F) : BB F := ⟨min a.l v.x, min a.b v.y, max a.r v.x, max a.t v.y⟩
/-- /repo/bb.go:78-80 `Center`. -/
def center (a : BB F) : Vec F := (⟨a.l, a.b⟩ : Vec F).lerp ⟨a.r, a.t⟩ (lit (1 / 2))
/-- /repo/bb.go:83-85 `Area`. -/
def area (a : BB F) : F := (a.r - a.l) * (a.t - a.b)
/-- /repo/bb.go:88-90 `MergedArea`. -/
def mergedArea (a b : BB F) : F := (max a.r b.r - min a.l b.l) * (max a.t b.t - min a.b b.b)

/-- The slab update of one axis in /repo/bb.go:99-108 and :110-119: `none` is the early
`return INFINITY`, `some (tmin, tmax)` the updated interval. -/
def slab (lo hi a delta tmin tmax : F) : Option (F × F) :=
  if delta = 0 then
    if a < lo ∨ hi < a then none else some (tmin, tmax)
  else
    let t1 := (lo - a) / delta
    let t2 := (hi - a) / delta
    some (max tmin (min t1 t2), min tmax (max t1 t2))

/-- /repo/bb.go:94-126 `SegmentQuery`. -/
def segmentQuery (bb : BB F) (a b : Vec F) : F :=
  let delta := b.sub a
  match slab bb.l bb.r a.x delta.x (-maxFloat) maxFloat with
  | none => maxFloat
  | some (tmin, tmax) =>
    match slab bb.b bb.t a.y delta.y tmin tmax with
    | none => maxFloat
    | some (tmin, tmax) =>
      if tmin ≤ tmax ∧ 0 ≤ tmax ∧ tmin ≤ 1 then max tmin 0 else maxFloat

/-- /repo/bb.go:129-131 `IntersectsSegment`. -/
def intersectsSegment (bb : BB F) (a b : Vec F) : Bool := decide (bb.segmentQuery a b ≠ maxFloat)
/-- /repo/bb.go:134-136 `ClampVect`. -/
def clampVect (bb : BB F) (v : Vec F) : Vec F := ⟨clamp v.x bb.l bb.r, clamp v.y bb.b bb.t⟩
/-- /repo/bb.go:162-169 `Offset`. -/
def offset (bb : BB F) (v : Vec F) : BB F := ⟨bb.l + v.x, bb.b + v.y, bb.r + v.x, bb.t + v.y⟩
/-- /repo/bb.go:171-173 `Proximity`. -/
def proximity (a b : BB F) : F :=
  fabs (a.l + a.r - b.l - b.r) + fabs (a.b + a.t - b.b - b.t)

end BB

/-- /repo/transform.go:5-7 `Transform`. -/
@[ext] structure Transform (F : Type) where
  a : F
  b : F
  c : F
  d : F
  tx : F
  ty : F

namespace Transform
variable {F : Type} [GoFloat F]
open GoFloat

/-- /repo/transform.go:9-11 `NewTransformIdentity`. -/
def identity : Transform F := ⟨1, 0, 0, 1, 0, 0⟩
/-- /repo/transform.go:17-19 `NewTransformTranspose` (and :13-15 `NewTransform`). -/
def transpose (a c tx b d ty : F) : Transform F := ⟨a, b, c, d, tx, ty⟩
/-- /repo/transform.go:21-26 `NewTransformTranslate`. -/
def translate (v : Vec F) : Transform F := transpose 1 0 v.x 0 1 v.y
/-- /repo/transform.go:28-33 `NewTransformScale`. -/
def scale (sx sy : F) : Transform F := transpose sx 0 0 0 sy 0
/-- /repo/transform.go:35-41 `NewTransformRotate`. -/
def rotate (radians : F) : Transform F :=
  let rot : Vec F := Vec.forAngle radians
  transpose rot.x (-rot.y) 0 rot.y rot.x 0
/-- /repo/transform.go:43-49 `NewTransformRigid`. -/
def rigid (tr : Vec F) (radians : F) : Transform F :=
  let rot : Vec F := Vec.forAngle radians
  transpose rot.x (-rot.y) tr.x rot.y rot.x tr.y
/-- /repo/transform.go:51-56 `NewTransformRigidInverse`. -/
def rigidInverse (t : Transform F) : Transform F :=
  transpose t.d (-t.c) (t.c * t.ty - t.tx * t.d) (-t.b) t.a (t.tx * t.b - t.a * t.ty)
/-- /repo/transform.go:58-64 `Inverse`. -/
def inverse (t : Transform F) : Transform F :=
  let inv := 1 / (t.a * t.d - t.c * t.b)
  transpose (t.d * inv) (-t.c * inv) ((t.c * t.ty - t.tx * t.d) * inv)
    (-t.b * inv) (t.a * inv) ((t.tx * t.b - t.a * t.ty) * inv)
/-- /repo/transform.go:66-71 `Mult`. -/
def mult (t t2 : Transform F) : Transform F :=
  transpose
    (t.a * t2.a + t.c * t2.b) (t.a * t2.c + t.c * t2.d) (t.a * t2.tx + t.c * t2.ty + t.tx)
    (t.b * t2.a + t.d * t2.b) (t.b * t2.c + t.d * t2.d) (t.b * t2.tx + t.d * t2.ty + t.ty)
/-- /repo/transform.go:73-75 `Point`. -/
def point (t : Transform F) (p : Vec F) : Vec F :=
  ⟨t.a * p.x + t.c * p.y + t.tx, t.b * p.x + t.d * p.y + t.ty⟩
/-- /repo/transform.go:77-79 `Vect`. -/
def vect (t : Transform F) (v : Vec F) : Vec F := ⟨t.a * v.x + t.c * v.y, t.b * v.x + t.d * v.y⟩
/-- /repo/transform.go:81-92 `BB`. -/
def bb (t : Transform F) (bb : BB F) : BB F :=
  let hw := (bb.r - bb.l) * lit (1 / 2)
  let hh := (bb.t - bb.b) * lit (1 / 2)
  let a := t.a * hw
  let b := t.c * hh
  let d := t.b * hw
  let e := t.d * hh
  let hwMax := max (fabs (a + b)) (fabs (a - b))
  let hhMax := max (fabs (d + e)) (fabs (d - e))
  BB.forExtents (t.point bb.center) hwMax hhMax
/-- /repo/transform.go:96-98 `Wrap`. -/
def wrap (t inner : Transform F) : Transform F := t.inverse.mult (inner.mult t)
/-- /repo/transform.go:100-105 `Ortho`. -/
def ortho (bb : BB F) : Transform F :=
  transpose (lit 2 / (bb.r - bb.l)) 0 (-(bb.r + bb.l) / (bb.r - bb.l))
    0 (lit 2 / (bb.t - bb.b)) (-(bb.t + bb.b) / (bb.t - bb.b))
/-- /repo/transform.go:107-113 `BoneScale`. -/
def boneScale (v0 v1 : Vec F) : Transform F :=
  let d := v1.sub v0
  transpose d.x (-d.y) v0.x d.y d.x v0.y
/-- /repo/transform.go:115-123 `AxialScale`. -/
def axialScale (axis pivot : Vec F) (s : F) : Transform F :=
  let A := axis.x * axis.y * (s - 1)
  let B := axis.dot pivot * (1 - s)
  transpose (s * axis.x * axis.x + axis.y * axis.y) A (axis.x * B)
    A (axis.x * axis.x + s * axis.y * axis.y) (axis.y * B)

end Transform
end CP
