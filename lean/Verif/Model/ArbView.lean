import Verif.Model.Solver

/-! # What an arbiter shows (/repo/arbiter.go:409-531)

`swapped` is the stored flag of the arbiter (Model/Dispatch.lean computes it), `live` is
`arb.state < CP_ARBITER_STATE_CACHED`. The fixed array `Points` with its `Count` is a list. -/

namespace CP
section
variable {F : Type} [GoFloat F]

/-- One element of `ContactPointSet.Points` (/repo/arbiter.go:464-471). -/
structure ContactPoint (F : Type) where
  pointA : Vec F
  pointB : Vec F
  distance : F

/-- /repo/arbiter.go:457-471 `ContactPointSet`. -/
structure PointSet (F : Type) where
  normal : Vec F
  points : List (ContactPoint F)

namespace Arb

/-- The contacts `Arbiter.Count` counts (/repo/arbiter.go:424-429). -/
def shown (arb : Arb F) (live : Bool) : List (Contact F) := if live then arb.contacts else []

/-- /repo/arbiter.go:424-429 `Count`. -/
def count (arb : Arb F) (live : Bool) : Nat := (arb.shown live).length

/-- /repo/arbiter.go:448-454 `Normal`. -/
def normal (arb : Arb F) (swapped : Bool) : Vec F := if swapped then arb.n.mult (-1) else arb.n

/-- /repo/arbiter.go:474-503 `ContactPointSet`. -/
def contactPointSet (h : Bodies F) (arb : Arb F) (swapped live : Bool) : PointSet F :=
  { normal := if swapped then arb.n.neg else arb.n
    points := (arb.shown live).map fun c =>
      let p1 := (h arb.a).p.add c.r1
      let p2 := (h arb.b).p.add c.r2
      if swapped then ⟨p2, p1, (p2.sub p1).dot arb.n⟩ else ⟨p1, p2, (p2.sub p1).dot arb.n⟩ }

/-- /repo/arbiter.go:508-531 `SetContactPointSet`; `none` is the failed assertion on the count. -/
def setContactPointSet (h : Bodies F) (arb : Arb F) (swapped : Bool) (set : PointSet F) : Option (Arb F) :=
  if set.points.length = arb.contacts.length then
    some { arb with
      n := if swapped then set.normal.neg else set.normal
      contacts := List.zipWith (fun (c : Contact F) (q : ContactPoint F) =>
        if swapped then { c with r1 := q.pointB.sub (h arb.a).p, r2 := q.pointA.sub (h arb.b).p }
        else { c with r1 := q.pointA.sub (h arb.a).p, r2 := q.pointB.sub (h arb.b).p }) arb.contacts set.points }
  else none

/-- /repo/arbiter.go:409-422 `TotalImpulse` in any state. -/
def shownImpulse (arb : Arb F) (swapped live : Bool) : Vec F :=
  let sum := (arb.shown live).foldl (fun s c => s.add (arb.n.rotate ⟨c.jnAcc, c.jtAcc⟩)) ⟨0, 0⟩
  if swapped then sum else sum.neg

end Arb
end
end CP
