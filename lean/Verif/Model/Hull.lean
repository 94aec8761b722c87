import Verif.Model.Shapes

/-! # Convex hulls: /repo/poly.go `ConvexHull`, `LoopIndexes`, `QHullReduce`, `QHullPartition`

The functions work in place on one array through overlapping slices: `verts[k:]` is the array with an offset. An access
outside of the array (a Go panic) gives `none`. -/

namespace CP
namespace HullImpl
open GoFloat
variable {F : Type} [GoFloat F]

/-- `verts[i], verts[j] = verts[j], verts[i]`. -/
def swap (A : Array (Vec F)) (i j : Nat) : Option (Array (Vec F)) := do
  let x ← A[i]?
  let y ← A[j]?
  some ((A.setIfInBounds i y).setIfInBounds j x)

/-- `result[i] = v`. -/
def store (A : Array (Vec F)) (i : Nat) (v : Vec F) : Option (Array (Vec F)) :=
  if i < A.size then some (A.setIfInBounds i v) else none

/-- The variables `start, end, min, max` of `LoopIndexes` (/repo/poly.go:277-281). -/
structure LoopSt (F : Type) where
  start : Nat
  stop : Nat
  mn : Vec F
  mx : Vec F

/-- The body of the loop of `LoopIndexes` (/repo/poly.go:283-293). -/
def loopStep (st : LoopSt F) (i : Nat) (v : Vec F) : LoopSt F :=
  if v.x < st.mn.x ∨ (v.x = st.mn.x ∧ v.y < st.mn.y) then { st with mn := v, start := i }
  else if st.mx.x < v.x ∨ (v.x = st.mx.x ∧ st.mx.y < v.y) then { st with mx := v, stop := i }
  else st

/-- /repo/poly.go:276-296 `LoopIndexes`: `n` iterations from `i`. -/
def loopIndexesFrom (A : Array (Vec F)) (st : LoopSt F) (i : Nat) : Nat → Option (LoopSt F)
  | 0 => some st
  | n + 1 => do
    let v ← A[i]?
    loopIndexesFrom A (loopStep st i v) (i + 1) n

def loopIndexes (A : Array (Vec F)) (count : Nat) : Option (Nat × Nat) := do
  let v0 ← A[0]?
  let st ← loopIndexesFrom A ⟨0, 0, v0, v0⟩ 1 (count - 1)
  some (st.start, st.stop)

/-- The loop of `QHullPartition` (/repo/poly.go:334-347); `n = tail - head + 1` elements are still to be looked at, `vo` is
the offset of the slice. Returns the array, `head` and `pivot`. -/
def partLoop (vo : Nat) (a delta : Vec F) (valueTol : F) :
    Nat → Nat → F → Nat → Array (Vec F) → Option (Array (Vec F) × Nat × Nat)
  | 0, head, _, pivot, A => some (A, head, pivot)
  | n + 1, head, mx, pivot, A => do
    let v ← A[vo + head]?
    let value := (v.sub a).cross delta
    if valueTol < value then
      if mx < value then partLoop vo a delta valueTol n (head + 1) value head A
      else partLoop vo a delta valueTol n (head + 1) mx pivot A
    else
      let A ← swap A (vo + head) (vo + head + n)
      partLoop vo a delta valueTol n head mx pivot A

/-- /repo/poly.go:320-352 `QHullPartition`. -/
def partition (A : Array (Vec F)) (vo count : Nat) (a b : Vec F) (tol : F) : Option (Array (Vec F) × Nat) :=
  if count = 0 then some (A, 0)
  else do
    let delta := b.sub a
    let valueTol := tol * delta.length
    let (A, head, pivot) ← partLoop vo a delta valueTol count 0 0 0 A
    if pivot ≠ 0 then do
      let A ← swap A vo (vo + pivot)
      some (A, head)
    else some (A, head)

/-- /repo/poly.go:298-318 `QHullReduce`: `verts = A[vo:]`, `result = A[ro:]`. The recursion is on `fuel`, `count + 1` is
enough (shown in `C28_hull`). -/
def reduce (tol : F) : Nat → Array (Vec F) → Nat → Nat → Vec F → Vec F → Vec F → Nat → Option (Array (Vec F) × Nat)
  | 0, _, _, _, _, _, _, _ => none
  | fuel + 1, A, vo, count, a, pivot, b, ro =>
    if count = 0 then do
      let A ← store A ro pivot
      some (A, 1)
    else do
      let (A, leftCount) ← partition A vo count a pivot tol
      let (A, index) ← (if 0 < leftCount then do
          let p ← A[vo]?
          reduce tol fuel A (vo + 1) (leftCount - 1) a p pivot ro
        else some (A, 0))
      let A ← store A (ro + index) pivot
      let index := index + 1
      let (A, rightCount) ← partition A (vo + leftCount) (count - leftCount) pivot b tol
      if rightCount = 0 then some (A, index)
      else do
        let p ← A[vo + leftCount]?
        let (A, n) ← reduce tol fuel A (vo + leftCount + 1) (rightCount - 1) pivot p b (ro + index)
        some (A, index + n)

/-- /repo/poly.go:250-274 `ConvexHull`: the new contents of `verts`, the result and `*first`. -/
def convexHull (count : Nat) (A : Array (Vec F)) (tol : F) : Option (Array (Vec F) × Nat × Nat) := do
  let (start, stop) ← loopIndexes A count
  if start = stop then some (A, 1, 0)
  else do
    let A ← swap A 0 start
    let A ← (if stop = 0 then swap A 1 start else swap A 1 stop)
    let a ← A[0]?
    let b ← A[1]?
    let (A, n) ← reduce tol (count - 1) A 2 (count - 2) a b a 1
    some (A, n + 1, start)

/-- /repo/poly.go:159-168 `NewPolyShape`, and /repo/poly.go:218-227 `SetVertsUnsafe`. The body and the mass are left out. -/
def newPolyShape (verts : Array (Vec F)) (t : Transform F) (radius : F) : Option (Poly F) := do
  let hullVerts := verts.map t.point
  let (A, k, _) ← convexHull hullVerts.size hullVerts 0
  some (Poly.new (A.toList.take k) radius)

end HullImpl
end CP
