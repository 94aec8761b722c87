import Verif.Model.Hull
import Verif.Model.BB

/-! # Polylines: /repo/polyline.go

A polyline is the list of its vertices. The slice of a line that has no vertices is `nil`, as it is for every line built with
the API. Lines of a set are different objects. `none` stands for a panic or an endless loop; loops that need not end take
a bound `fuel` on the number of their rounds, and `none` for every `fuel` means that the call does not return. -/

namespace CP
namespace PL
open GoFloat
variable {F : Type} [GoFloat F]

abbrev Line (F : Type) := List (Vec F)

/-- /repo/vector.go:16-18 `Equal`. -/
def vecEq (v w : Vec F) : Bool := decide (v.x = w.x ∧ v.y = w.y)

/-- /repo/polyline.go:31-33 `IsClosed`. -/
def isClosed (l : Line F) : Bool :=
  match l, l.getLast? with
  | v :: _ :: _, some e => vecEq v e
  | _, _ => false

/-- /repo/polyline.go:135-142 `FindEnds` (`none` for -1). -/
def findEnds (lines : List (Line F)) (v : Vec F) : Option Nat :=
  lines.findIdx? fun l => match l.getLast? with
    | some e => vecEq e v
    | none => false

/-- /repo/polyline.go:145-152 `FindStarts`. -/
def findStarts (lines : List (Line F)) (v : Vec F) : Option Nat :=
  lines.findIdx? fun l => match l.head? with
    | some e => vecEq e v
    | none => false

/-- /repo/polyline.go:162-166 `Join`. -/
def join (lines : List (Line F)) (before after : Nat) : Option (List (Line F)) := do
  let a ← lines[before]?
  let b ← lines[after]?
  some ((lines.set before (a ++ b)).eraseIdx after)

/-- /repo/polyline.go:170-188 `PolyLineCollectSegment`, with /repo/polyline.go:21-24 `Push`, /repo/polyline.go:26-29 `Enqueue` and
/repo/polyline.go:155-157 `Push`. -/
def collectSegment (v0 v1 : Vec F) (lines : List (Line F)) : Option (List (Line F)) :=
  match findEnds lines v0, findStarts lines v1 with
  | some before, some after =>
    if before = after then do
      let l ← lines[before]?
      some (lines.set before (l ++ [v1]))
    else join lines before after
  | some before, none => do
    let l ← lines[before]?
    some (lines.set before (l ++ [v1]))
  | none, some after => do
    let l ← lines[after]?
    some (lines.set after (v0 :: l))
  | none, none => some (lines ++ [[v0, v1]])

/-- /repo/polyline.go:13-15 `Next`. -/
def next (i count : Nat) : Nat := (i + 1) % count

/-- /repo/polyline.go:17-19 `Sharpness`. -/
def sharpness (a b c : Vec F) : F := (a.sub b).normalize.dot (c.sub b).normalize

/-- The loop of /repo/polyline.go:35-45 `IsShort`. The loop variable is never advanced. -/
def isShortFrom (verts : Line F) (count start stop : Nat) (min : F) : Nat → F → Option Bool
  | 0, _ => none
  | fuel + 1, length =>
    if start = stop then some true
    else do
      let a ← verts[start]?
      let b ← verts[next start count]?
      let length := length + a.distance b
      if min < length then some false else isShortFrom verts count start stop min fuel length

/-- /repo/polyline.go:35-45 `IsShort`. -/
def isShort (fuel : Nat) (verts : Line F) (count start stop : Nat) (min : F) : Option Bool :=
  isShortFrom verts count start stop min fuel 0

/-- The loop of /repo/polyline.go:91-98. -/
def farthest (verts : Line F) (length stop : Nat) (n : Vec F) (d : F) : Nat → Nat → F → Nat → Option (F × Nat)
  | 0, _, _, _ => none
  | fuel + 1, i, mx, maxi =>
    if i = stop then some (mx, maxi)
    else do
      let v ← verts[i]?
      let dist := fabs (n.dot v - d)
      if mx < dist then farthest verts length stop n d fuel (next i length) dist i
      else farthest verts length stop n d fuel (next i length) mx maxi

/-- The condition of /repo/polyline.go:80. -/
def nearShort (fuel : Nat) (a b : Vec F) (reduced : Line F) (length start stop : Nat) (min : F) : Option Bool :=
  if a.near b min then isShort fuel reduced length start stop min else some false

/-- /repo/polyline.go:70-107 `DouglasPeucker`. `start` and `stop` are less than `length`, so `end - start + length` is not
negative. -/
def douglasPeucker (verts : Line F) (length : Nat) (min tol : F) : Nat → Line F → Nat → Nat → Option (Line F)
  | 0, _, _, _ => none
  | fuel + 1, reduced, start, stop =>
    if (stop + length - start) % length < 2 then some reduced
    else do
      let a ← verts[start]?
      let b ← verts[stop]?
      let short ← nearShort (fuel + 1) a b reduced length start stop min
      if short then some reduced
      else
        let n := (b.sub a).perp.normalize
        let d := n.dot a
        let (mx, maxi) ← farthest verts length stop n d (fuel + 1) (next start length) 0 start
        if tol < mx then do
          let v ← verts[maxi]?
          let reduced ← douglasPeucker verts length min tol fuel reduced start maxi
          douglasPeucker verts length min tol fuel (reduced ++ [v]) maxi stop
        else some reduced

/-- /repo/polyline.go:112-132 `SimplifyCurves`. -/
def simplifyCurves (fuel : Nat) (verts : Line F) (tol : F) : Option (Line F) :=
  let min := tol / lit 2
  if isClosed verts then do
    let (start, stop) ← HullImpl.loopIndexes verts.toArray (verts.length - 1)
    let s ← verts[start]?
    let e ← verts[stop]?
    let reduced ← douglasPeucker verts (verts.length - 1) min tol fuel [s] start stop
    let reduced ← douglasPeucker verts (verts.length - 1) min tol fuel (reduced ++ [e]) stop start
    some (reduced ++ [s])
  else do
    let s ← verts[0]?
    let e ← verts[verts.length - 1]?
    let reduced ← douglasPeucker verts verts.length min tol fuel [s] 0 (verts.length - 1)
    some (reduced ++ [e])

/-- The loop of /repo/polyline.go:53-61; the first list is `reduced` without its last two vertices `p`, `q`. -/
def simplifyLoop (minSharp : F) (init : Line F) (p q : Vec F) : Line F → Line F × Vec F × Vec F
  | [] => (init, p, q)
  | v :: rest =>
    if sharpness p q v ≤ minSharp then simplifyLoop minSharp init p v rest
    else simplifyLoop minSharp (init ++ [p]) q v rest

/-- /repo/polyline.go:49-67 `SimplifyVertexes`. -/
def simplifyVertexes (verts : Line F) (tol : F) : Option (Line F) :=
  match verts with
  | v0 :: v1 :: rest =>
    let minSharp := -(cos tol)
    let (init, p, q) := simplifyLoop minSharp [] v0 v1 rest
    let reduced := init ++ [p, q]
    match reduced with
    | r0 :: r1 :: rs => if isClosed verts ∧ sharpness p r0 r1 < minSharp then some (p :: r1 :: rs) else some reduced
    | _ => none
  | _ => none

end PL
end CP
