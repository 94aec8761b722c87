import Verif.Model.BB

/-! # Mass property formulas (/repo/everything.go:192-296)

A slice of vertices is its access function `verts : Nat → Vec F` together with `count`; an index beyond the length of
the slice (a panic) is outside of the model. -/

namespace CP
open GoFloat
variable {F : Type} [GoFloat F]

/-- /repo/everything.go:205-207 `MomentForBox`. -/
def momentForBox (mass width height : F) : F := mass * (width * width + height * height) / lit 12

/-- /repo/everything.go:210-217 `MomentForBox2`. -/
def momentForBox2 (mass : F) (box : BB F) : F :=
  let width := box.r - box.l
  let height := box.t - box.b
  let offset := (⟨box.l + box.r, box.b + box.t⟩ : Vec F).mult (lit (1 / 2))
  momentForBox mass width height + mass * offset.lengthSq

/-- /repo/everything.go:222-224 `MomentForCircle`. -/
def momentForCircle (mass r1 r2 : F) (offset : Vec F) : F :=
  mass * (lit (1 / 2) * (r1 * r1 + r2 * r2) + offset.lengthSq)

/-- /repo/everything.go:229-233 `MomentForSegment`. -/
def momentForSegment (mass : F) (a b : Vec F) (r : F) : F :=
  let offset := a.lerp b (lit (1 / 2))
  let length := b.distance a + lit 2 * r
  mass * ((length * length + lit 4 * r * r) / lit 12 + offset.lengthSq)

/-- A loop `for i := 0; i < count; i++` that looks at `verts[i]` and `verts[(i+1)%count]`. -/
def edgeLoop {A : Type} (count : Nat) (verts : Nat → Vec F) (f : A → Vec F → Vec F → A) (init : A) : A :=
  (List.range count).foldl (fun acc i => f acc (verts i) (verts ((i + 1) % count))) init

/-- /repo/everything.go:237-256 `MomentForPoly`. -/
def momentForPoly (mass : F) (count : Nat) (verts : Nat → Vec F) (offset : Vec F) : F :=
  if count = 2 then momentForSegment mass (verts 0) (verts 1) 0
  else
    let sums := edgeLoop count verts (fun (p : F × F) u v =>
      let v1 := u.add offset
      let v2 := v.add offset
      let a := v2.cross v1
      let b := v1.dot v1 + v1.dot v2 + v2.dot v2
      (p.1 + a * b, p.2 + a)) (0, 0)
    mass * sums.1 / (lit 6 * sums.2)

/-- /repo/everything.go:261-263 `AreaForCircle`; `pi` is `math.Pi`. -/
def areaForCircle (pi r1 r2 : F) : F := pi * fabs (r1 * r1 - r2 * r2)

/-- /repo/everything.go:266-268 `AreaForSegment`. -/
def areaForSegment (pi : F) (a b : Vec F) (r : F) : F := r * (pi * r + lit 2 * a.distance b)

/-- /repo/everything.go:273-285 `AreaForPoly`. -/
def areaForPoly (pi : F) (count : Nat) (verts : Nat → Vec F) (r : F) : F :=
  let sums := edgeLoop count verts (fun (p : F × F) v1 v2 => (p.1 + v1.cross v2, p.2 + v1.distance v2)) (0, 0)
  r * (pi * fabs r + sums.2) + sums.1 / lit 2

/-- /repo/everything.go:288-302 `CentroidForPoly`. -/
def centroidForPoly (count : Nat) (verts : Nat → Vec F) : Vec F :=
  let sums := edgeLoop count verts (fun (p : F × Vec F) v1 v2 =>
    let cross := v1.cross v2
    (p.1 + cross, p.2.add ((v1.add v2).mult cross))) (0, ⟨0, 0⟩)
  sums.2.mult (1 / (lit 3 * sums.1))

/-- /repo/poly.go:181-192 `NewBox` and /repo/poly.go:194-202 `NewBox2`: the vertices of a box. -/
def boxVerts (bb : BB F) : Nat → Vec F
  | 0 => ⟨bb.r, bb.b⟩
  | 1 => ⟨bb.r, bb.t⟩
  | 2 => ⟨bb.l, bb.t⟩
  | _ => ⟨bb.l, bb.b⟩

end CP
