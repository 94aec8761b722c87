import Verif.Model.SpaceHash

/-! # Segment queries of the spatial hash: /repo/spacehash.go:223-317, /repo/space.go:1043-1059, :881-894

The callback `f` gets the shape and what it keeps between calls (`σ`: the `data` and `obj` arguments of the code) and returns the
number that may shorten the segment. It makes no queries of the same index. -/

namespace CP
open GoFloat
variable {F : Type} [GoFloat F] {σ : Type}

/-- `math.Floor`. -/
def mathFloor (f : F) : F := ofInt (goFloor f)

namespace SHash

/-- /repo/spacehash.go:227-241: the loop of `segmentQueryHelper`, up to the end (`false`) or the first orphan (`true`). -/
def segScan (f : Obj → σ → σ × F) : List HId → SHash F → σ → F → (SHash F × σ × F) × Bool
  | [], s, c, t => ((s, c, t), false)
  | h :: rest, s, c, t =>
    if (s.hd h).stamp = s.stamp then segScan f rest s c t
    else
      match (s.hd h).obj with
      | none => ((s, c, t), true)
      | some other =>
        let r := f other c
        segScan f rest (s.setHd h { s.hd h with stamp := s.stamp }) r.1 (min t r.2)

/-- /repo/spacehash.go:223-243 `segmentQueryHelper`: the bins left, the state, what the callback keeps and the result. `fuel` bounds
the restarts (`none` would mean that it restarts more often). -/
def segHelper (f : Obj → σ → σ × F) : Nat → List HId → SHash F → σ → F → Option (List HId × SHash F × σ × F)
  | 0, _, _, _, _ => none
  | fuel + 1, bin, s, c, t =>
    match segScan f bin s c t with
    | ((s, c, t), false) => some (bin, s, c, t)
    | ((s, c, t), true) =>
      let r := s.removeOrphans bin
      segHelper f fuel r.2 r.1 c t

/-- /repo/spacehash.go:302-303: the search of one bucket in the loop of `SegmentQuery`; the state, what the callback keeps and the
new `t_exit`. -/
def segCell (f : Obj → σ → σ × F) (s : SHash F) (c : σ) (tExit : F) (idx : Nat) : Option (SHash F × σ × F) :=
  match s.table[idx]? with
  | none => none
  | some bin => (segHelper f (bin.length + 1) bin s c 1).map fun r =>
      ({ r.2.1 with table := r.2.1.table.set idx r.1 }, r.2.2.1, min tExit r.2.2.2)

end SHash

/-- The variables of the loop of `SegmentQuery` that say where it is (/repo/spacehash.go:250-298), in units of the cells. -/
structure Walk (F : Type) where
  cellX : Int
  cellY : Int
  t : F
  xInc : Int
  yInc : Int
  dtdx : F
  dtdy : F
  nextH : F
  nextV : F

/-- /repo/spacehash.go:247-298: the start of `SegmentQuery`. -/
def Walk.start (celldim : F) (a b : Vec F) : Walk F :=
  let a := a.mult (1 / celldim)
  let b := b.mult (1 / celldim)
  let xInc : Int := if a.x < b.x then 1 else -1
  let tempH := if a.x < b.x then mathFloor (a.x + 1) - a.x else a.x - mathFloor a.x
  let yInc : Int := if a.y < b.y then 1 else -1
  let tempV := if a.y < b.y then mathFloor (a.y + 1) - a.y else a.y - mathFloor a.y
  let dx := fabs (b.x - a.x)
  let dy := fabs (b.y - a.y)
  let dtdx := if dx ≠ 0 then 1 / dx else maxFloat
  let dtdy := if dy ≠ 0 then 1 / dy else maxFloat
  { cellX := goFloor a.x, cellY := goFloor a.y, t := 0, xInc := xInc, yInc := yInc, dtdx := dtdx, dtdy := dtdy,
    nextH := if tempH ≠ 0 then tempH * dtdx else dtdx,
    nextV := if tempV ≠ 0 then tempV * dtdy else dtdy }

/-- /repo/spacehash.go:305-313: to the next cell. -/
def Walk.next (w : Walk F) : Walk F :=
  if w.nextV < w.nextH then { w with cellY := w.cellY + w.yInc, t := w.nextV, nextV := w.nextV + w.dtdy }
  else { w with cellX := w.cellX + w.xInc, t := w.nextH, nextH := w.nextH + w.dtdx }

namespace SHash

/-- /repo/spacehash.go:301-314: the loop of `SegmentQuery`. `fuel` bounds the number of turns (`none`: not enough of them). -/
def segLoop (f : Obj → σ → σ × F) : Nat → Walk F → SHash F → σ → F → Option (SHash F × σ)
  | 0, _, _, _, _ => none
  | fuel + 1, w, s, c, tExit =>
    if w.t < tExit then
      match segCell f s c tExit (cellIndex s.numCells (w.cellX, w.cellY)) with
      | none => none
      | some (s, c, tExit) => segLoop f fuel w.next s c tExit
    else some (s, c)

/-- /repo/spacehash.go:246-317 `SegmentQuery`. -/
def segmentQuery (fuel : Nat) (s : SHash F) (f : Obj → σ → σ × F) (c : σ) (a b : Vec F) (tExit : F) : Option (SHash F × σ) :=
  (segLoop f fuel (Walk.start s.celldim a b) s c tExit).map fun r => ({ r.1 with stamp := r.1.stamp + 1 }, r.2)

end SHash

namespace HWorld

/-- /repo/space.go:1053-1059 `Space.SegmentQueryFirst` after `UseSpatialHash`: the indexes after it and the result. -/
def segmentQueryFirst (fuel : Nat) (w : HWorld F) (a b : Vec F) (hit : Obj → Option (SegInfo F)) : Option (HWorld F × SegInfo F) :=
  match w.stat.segmentQuery fuel (queryFirst hit) ⟨none, b, ⟨0, 0⟩, 1⟩ a b 1 with
  | none => none
  | some (stat, info) => (w.dyn.segmentQuery fuel (queryFirst hit) info a b info.alpha).map fun r =>
      ({ w with stat := stat, dyn := r.1 }, r.2)

/-- /repo/space.go:1043-1051 `Space.SegmentQuery` after `UseSpatialHash`: the indexes after it and the calls of the user's callback. -/
def segmentQuery (fuel : Nat) (w : HWorld F) (a b : Vec F) (hit : Obj → Option (SegInfo F)) : Option (HWorld F × List (Obj × SegInfo F)) :=
  match w.stat.segmentQuery fuel (segmentQueryCb hit) [] a b 1 with
  | none => none
  | some (stat, log) => (w.dyn.segmentQuery fuel (segmentQueryCb hit) log a b 1).map fun r =>
      ({ w with stat := stat, dyn := r.1 }, r.2)

/-- /repo/space.go:881-894 `UseSpatialHash`, from the shapes that `Each` of the static and of the dynamic index visits, in order. `pick`
is the choice of the handle pool. -/
def use (hash : Obj → Nat) (pick : Obj → Nat) (box : Obj → BB F) (dim : F) (count : Nat) (stat dyn : List Obj) : Option (HWorld F) :=
  match HWorld.init box dim count with
  | none => none
  | some w =>
    match stat.foldlM (fun (w : HWorld F) o => w.step hash (.insert true o (pick o))) w with
    | none => none
    | some w => dyn.foldlM (fun (w : HWorld F) o => w.step hash (.insert false o (pick o))) w

end HWorld
end CP
