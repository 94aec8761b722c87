import Verif.Model.Scalar

/-! # Vectors (/repo/vector.go) -/

namespace CP

/-- /repo/vector.go:8-10 `Vector`. -/
@[ext] structure Vec (F : Type) where
  x : F
  y : F

namespace Vec
variable {F : Type} [GoFloat F]
open GoFloat

/-- /repo/vector.go:20-22 `Add`. -/
def add (v o : Vec F) : Vec F := ⟨v.x + o.x, v.y + o.y⟩
/-- /repo/vector.go:24-26 `Sub`. -/
def sub (v o : Vec F) : Vec F := ⟨v.x - o.x, v.y - o.y⟩
/-- /repo/vector.go:28-30 `Neg`. -/
def neg (v : Vec F) : Vec F := ⟨-v.x, -v.y⟩
/-- /repo/vector.go:32-34 `Mult`. -/
def mult (v : Vec F) (s : F) : Vec F := ⟨v.x * s, v.y * s⟩
/-- /repo/vector.go:36-38 `Dot`. -/
def dot (v o : Vec F) : F := v.x * o.x + v.y * o.y
/-- /repo/vector.go:43-45 `Cross`. -/
def cross (v o : Vec F) : F := v.x * o.y - v.y * o.x
/-- /repo/vector.go:47-49 `Perp`. -/
def perp (v : Vec F) : Vec F := ⟨-v.y, v.x⟩
/-- /repo/vector.go:51-53 `ReversePerp`. -/
def rperp (v : Vec F) : Vec F := ⟨v.y, -v.x⟩
/-- /repo/vector.go:55-57 `Project`. -/
def project (v o : Vec F) : Vec F := o.mult (v.dot o / o.dot o)
/-- /repo/vector.go:60-62 `ForAngle`. -/
def forAngle (a : F) : Vec F := ⟨cos a, sin a⟩
/-- /repo/vector.go:68-70 `Rotate`. -/
def rotate (v o : Vec F) : Vec F := ⟨v.x * o.x - v.y * o.y, v.x * o.y + v.y * o.x⟩
/-- /repo/vector.go:72-74 `Unrotate`. -/
def unrotate (v o : Vec F) : Vec F := ⟨v.x * o.x + v.y * o.y, v.y * o.x - v.x * o.y⟩
/-- /repo/vector.go:76-78 `LengthSq`. -/
def lengthSq (v : Vec F) : F := v.dot v
/-- /repo/vector.go:80-82 `Length`. -/
def length (v : Vec F) : F := sqrt (v.dot v)
/-- /repo/vector.go:84-86 `Lerp`. -/
def lerp (v o : Vec F) (t : F) : Vec F := (v.mult (1 - t)).add (o.mult t)
/-- /repo/vector.go:88-90 `Normalize`. -/
def normalize (v : Vec F) : Vec F := v.mult (1 / (v.length + lit (1 / 10 ^ 15)))
/-- /repo/vector.go:92-102 `SLerp`. -/
def slerp (v o : Vec F) (t : F) : Vec F :=
  let d := v.normalize.dot o.normalize
  let omega := acos (clamp d (lit (-1)) 1)
  if omega < lit (1 / 1000) then v.lerp o t
  else
    let denom := 1 / sin omega
    (v.mult (sin ((1 - t) * omega) * denom)).add (o.mult (sin (t * omega) * denom))
/-- /repo/vector.go:124-128 `SlerpConst`. -/
def slerpConst (v o : Vec F) (a : F) : Vec F :=
  let d := v.normalize.dot o.normalize
  let omega := acos (clamp d (lit (-1)) 1)
  v.slerp o (min a omega / omega)
/-- /repo/vector.go:130-135 `Vector.Clamp`. -/
def clampLen (v : Vec F) (l : F) : Vec F :=
  if l * l < v.dot v then v.normalize.mult l else ⟨v.x, v.y⟩
/-- /repo/vector.go:137-139 `Vector.LerpConst`. -/
def lerpConst (v o : Vec F) (d : F) : Vec F := v.add ((o.sub v).clampLen d)
/-- /repo/vector.go:141-143 `Distance`. -/
def distance (v o : Vec F) : F := (v.sub o).length
/-- /repo/vector.go:145-147 `DistanceSq`. -/
def distanceSq (v o : Vec F) : F := (v.sub o).lengthSq
/-- /repo/vector.go:149-151 `Near`. -/
def near (v o : Vec F) (d : F) : Bool := decide (v.distanceSq o < d * d)
/-- /repo/vector.go:155-157 `PointGreater`. -/
def pointGreater (v b c : Vec F) : Bool :=
  decide ((b.x - v.x) * (v.y + b.y - lit 2 * c.y) < (b.y - v.y) * (v.x + b.x - lit 2 * c.x))
/-- /repo/vector.go:159-161 `CheckAxis`. -/
def checkAxis (v v1 p n : Vec F) : Bool := decide (p.dot n ≤ max (v.dot n) (v1.dot n))
/-- /repo/vector.go:163-166 `ClosestT`. For equal vectors the quotient is NaN, `Clamp` returns the lower bound for NaN (its
comparison fails), and the result is 1. -/
def closestT (v b : Vec F) : F :=
  let delta := b.sub v
  if delta.lengthSq = 0 then -(lit (-1))
  else -(clamp (delta.dot (v.add b) / delta.lengthSq) (lit (-1)) 1)
/-- /repo/vector.go:168-171 `LerpT`. -/
def lerpT (v b : Vec F) (t : F) : Vec F :=
  let ht := lit (1 / 2) * t
  (v.mult (lit (1 / 2) - ht)).add (b.mult (lit (1 / 2) + ht))
/-- /repo/vector.go:173-175 `ClosestDist`. -/
def closestDist (v v1 : Vec F) : F := (v.lerpT v1 (v.closestT v1)).lengthSq
/-- /repo/vector.go:177-181 `ClosestPointOnSegment`. -/
def closestPointOnSegment (v a b : Vec F) : Vec F :=
  let delta := a.sub b
  let t := clamp01 (delta.dot (v.sub b) / delta.lengthSq)
  b.add (delta.mult t)

end Vec
end CP
