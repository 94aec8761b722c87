import Verif.Model.BB
import Verif.Model.HashSet

/-!
# The dynamic bounding-box trees (/repo/bbtree.go, /repo/spatialindex.go)

The two indexes of a `Space` (static and dynamic, linked to each other) are modelled together as a `World`.

* A leaf is identified with the shape it holds (`Obj`): the hash set `leaves` maps a shape to its one node.
* Parent pointers are replaced by recursion paths; node pools (`pooledNodes`, :499-529) are in
  `Verif.Model.NodeHeap`, which is proved to refine this model (C56).
* The pair lists threaded through the leaves (:26-59, :197-245, :386-405) are modelled by one list of pairs, newest
  first; the list of a leaf is the sublist of pairs containing it. The pointer structure itself is in
  `Verif.Model.PairHeap`.
* Go panics (nil dereference on removing an absent shape, hash set growth past the prime table) are `none`.
-/

namespace CP
open GoFloat

/-- A shape, as a key of the index (pointer identity). -/
abbrev Obj := Nat
/-- `uint32` collision ids. -/
abbrev Cid := BitVec 32

/-- The leaf fields of `Node` (/repo/bbtree.go:7-24). -/
structure Leaf (F : Type) where
  obj : Obj
  bb : BB F
  stamp : Nat

/-- /repo/bbtree.go:7-14 `Node`: a leaf or an inner node with its box and two children. -/
inductive Tree (F : Type) where
  | leaf (l : Leaf F)
  | node (bb : BB F) (a b : Tree F)

/-- /repo/bbtree.go:25-28 `Pair`: the two leaves and the collision id. -/
structure Pair where
  a : Obj
  b : Obj
  cid : Cid
deriving DecidableEq

namespace Tree
variable {F : Type} [GoFloat F]

/-- The field `Node.bb`. -/
def bb : Tree F → BB F
  | leaf l => l.bb
  | node bb _ _ => bb

/-- The leaves from left to right. -/
def leaves : Tree F → List (Leaf F)
  | leaf l => [l]
  | node _ a b => a.leaves ++ b.leaves

/-- The comparison in `SubtreeInsert` (/repo/bbtree.go:255-263): does the new leaf go to child `b`? -/
def goesB (abb bbb lbb : BB F) : Bool :=
  let costA := bbb.area + abb.mergedArea lbb
  let costB := abb.area + bbb.mergedArea lbb
  if costA = costB then decide (bbb.proximity lbb < abb.proximity lbb)
  else decide (costB < costA)

/-- /repo/bbtree.go:242-266 `SubtreeInsert` on a non-nil subtree (with `NewNode` :452-461). -/
def ins : Tree F → Leaf F → Tree F
  | leaf m, l => node (l.bb.merge m.bb) (leaf l) (leaf m)
  | node bb a b, l =>
    if goesB a.bb b.bb l.bb then node (bb.merge l.bb) a (b.ins l)
    else node (bb.merge l.bb) (a.ins l) b

/-- Does the subtree hold the shape? (In Go: following parent pointers from the leaf.) -/
def has : Tree F → Obj → Bool
  | leaf m, o => decide (m.obj = o)
  | node _ a b, o => a.has o || b.has o

/-- /repo/bbtree.go:268-283 `SubtreeRemove` and `ReplaceChild`: the sibling replaces the parent, and all ancestors'
boxes are recomputed (`none` is the empty tree). -/
def rem : Tree F → Obj → Option (Tree F)
  | leaf m, o => if m.obj = o then none else some (leaf m)
  | node bb a b, o =>
    if a.has o then
      match a.rem o with
      | none => some b
      | some a' => some (node (a'.bb.merge b.bb) a' b)
    else if b.has o then
      match b.rem o with
      | none => some a
      | some b' => some (node (a.bb.merge b'.bb) a b')
    else some (node bb a b)

/-- /repo/bbtree.go:409-418 `SubtreeQuery`: the shapes the callback is called with, in order. -/
def query : Tree F → BB F → List Obj
  | leaf l, q => if l.bb.intersects q then [l.obj] else []
  | node bb a b, q => if bb.intersects q then a.query q ++ b.query q else []

/-- /repo/bbtree.go:420-445 `SubtreeSegmentQuery`. The callback may keep state `S`. Returns the state and `t_exit`. -/
def segQuery {S : Type} (p q : Vec F) (f : Obj → S → S × F) : Tree F → F → S → S × F
  | leaf l, _, s => f l.obj s
  | node _ x y, t, s =>
    let tA := x.bb.segmentQuery p q
    let tB := y.bb.segmentQuery p q
    if tA < tB then
      let r1 := if tA < t then
          let r := x.segQuery p q f t s
          (r.1, min t r.2)
        else (s, t)
      if tB < r1.2 then
        let r := y.segQuery p q f r1.2 r1.1
        (r.1, min r1.2 r.2)
      else r1
    else
      let r1 := if tB < t then
          let r := y.segQuery p q f t s
          (r.1, min t r.2)
        else (s, t)
      if tA < r1.2 then
        let r := x.segQuery p q f r1.2 r1.1
        (r.1, min r1.2 r.2)
      else r1

end Tree

/-- /repo/bbtree.go:90-95 and :247-250: `SubtreeInsert` on a possibly empty tree. -/
def insRoot {F : Type} [GoFloat F] (t : Option (Tree F)) (l : Leaf F) : Tree F :=
  match t with
  | none => .leaf l
  | some t => t.ins l

/-- Leaves of a possibly empty tree. -/
def leavesOf {F : Type} [GoFloat F] (t : Option (Tree F)) : List (Leaf F) :=
  match t with
  | none => []
  | some t => t.leaves

/-- /repo/bbtree.go:403-407 `BBTree.Query`. -/
def queryRoot {F : Type} [GoFloat F] (t : Option (Tree F)) (q : BB F) : List Obj :=
  match t with
  | none => []
  | some t => t.query q

/-- /repo/bbtree.go:447-452 `BBTree.SegmentQuery` (the return value is dropped; `S` is what the callback changes). -/
def segQueryRoot {F S : Type} [GoFloat F] (p q : Vec F) (f : Obj → S → S × F) (t : Option (Tree F)) (tExit : F)
    (s : S) : S :=
  match t with
  | none => s
  | some t => (t.segQuery p q f tExit s).1

/-- /repo/everything.go:153-162 `SegmentQueryInfo`. -/
structure SegInfo (F : Type) where
  shape : Option Obj
  point : Vec F
  normal : Vec F
  alpha : F

/-- State threaded through marking: the pairs (newest first) and the log of callback calls
`(obj1, obj2, collisionId)` (oldest first). -/
structure Mark where
  pairs : List Pair
  log : List (Obj × Obj × Cid)

/-- The callback of `ReindexQuery`: what collision id it returns. -/
abbrev PairFn := Obj → Obj → Cid → Cid

/-- /repo/bbtree.go:190-216 `PairInsert` (list level). -/
def Mark.pairInsert (m : Mark) (a b : Obj) : Mark := { m with pairs := ⟨a, b, 0#32⟩ :: m.pairs }
/-- A call of the query callback whose result is dropped (/repo/bbtree.go:184). -/
def Mark.call (m : Mark) (a b : Obj) (c : Cid) : Mark := { m with log := m.log ++ [(a, b, c)] }

section mark
variable {F : Type} [GoFloat F]

/-- The leaf case of `MarkLeafQuery` (/repo/bbtree.go:176-186). -/
def visit (l : Leaf F) (left : Bool) (m : Mark) (s : Leaf F) : Mark :=
  if left then m.pairInsert l.obj s.obj
  else
    (if s.stamp < l.stamp then m.pairInsert s.obj l.obj else m).call l.obj s.obj 0#32

/-- /repo/bbtree.go:173-189 `MarkLeafQuery`. -/
def markLeafQuery (l : Leaf F) (left : Bool) : Tree F → Mark → Mark
  | .leaf s, m => if l.bb.intersects s.bb then visit l left m s else m
  | .node bb a b, m =>
    if l.bb.intersects bb then markLeafQuery l left b (markLeafQuery l left a m) else m

/-- `MarkLeafQuery` on a possibly nil root (/repo/bbtree.go:149-151). -/
def markLeafQueryRoot (l : Leaf F) (left : Bool) (t : Option (Tree F)) (m : Mark) : Mark :=
  match t with
  | none => m
  | some t => markLeafQuery l left t m

/-- The path from a leaf to the root, innermost first: `(true, sibling)` when the leaf is below child `a`
(the sibling is child `b`), `(false, sibling)` otherwise. Replaces the parent pointers of /repo/bbtree.go:153-159. -/
abbrev Path (F : Type) := List (Bool × Tree F)

/-- /repo/bbtree.go:146-172 `MarkLeaf`. -/
def markLeaf (stamp : Nat) (stat : Option (Tree F)) (f : PairFn) (l : Leaf F) (path : Path F) (m : Mark) :
    Mark :=
  if l.stamp = stamp then
    path.foldl (fun m s => markLeafQuery l s.1 s.2 m) (markLeafQueryRoot l false stat m)
  else
    { pairs := m.pairs.map fun p => if p.b = l.obj then { p with cid := f p.a l.obj p.cid } else p
      log := m.log ++ (m.pairs.filter fun p => decide (p.b = l.obj)).map fun p => (p.a, l.obj, p.cid) }

/-- /repo/bbtree.go:358-365 `MarkSubtree`. -/
def markSubtree (stamp : Nat) (stat : Option (Tree F)) (f : PairFn) : Tree F → Path F → Mark → Mark
  | .leaf l, path, m => markLeaf stamp stat f l path m
  | .node _ a b, path, m =>
    markSubtree stamp stat f b ((false, a) :: path)
      (markSubtree stamp stat f a ((true, b) :: path) m)

/-- The path of a shape's leaf (the parent chain of :153). -/
def Tree.path : Tree F → Obj → Path F → Option (Leaf F × Path F)
  | .leaf l, o, p => if l.obj = o then some (l, p) else none
  | .node _ a b, o, p =>
    if a.has o then a.path o ((true, b) :: p) else b.path o ((false, a) :: p)

end mark

/-- The static and the dynamic index of a space and what they see of the shapes.
`box`/`vel` are `bbfunc` and `velocityFunc` (/repo/bbtree.go:55-69): the current box and velocity of every shape,
changed from outside at any time. -/
structure World (F : Type) where
  box : Obj → BB F
  vel : Obj → Vec F
  stat : Option (Tree F)
  dyn : Option (Tree F)
  statSet : HashSet Obj
  dynSet : HashSet Obj
  stamp : Nat
  pairs : List Pair

section ops
variable {F : Type} [GoFloat F]

/-- /repo/bbtree.go:454-471 `GetBB` of the dynamic tree (with a velocity function). -/
def fatBB (bb : BB F) (vel : Vec F) : BB F :=
  let coef : F := lit (1 / 10)
  let x := (bb.r - bb.l) * coef
  let y := (bb.t - bb.b) * coef
  let v := vel.mult (lit (1 / 10))
  ⟨bb.l + min (-x) v.x, bb.b + min (-y) v.y, bb.r + max x v.x, bb.t + max y v.y⟩

/-- /repo/bbtree.go:454-471 `GetBB`: the static tree has no velocity function. -/
def World.getBB (w : World F) (isStatic : Bool) (o : Obj) : BB F :=
  if isStatic then w.box o else fatBB (w.box o) (w.vel o)

/-- /repo/bbtree.go:71-73 `leafSetEql`. -/
def leafEq (o n : Obj) : Bool := decide (o = n)

/-- /repo/bbtree.go:384-401 `PairsClear` (list level): drop all pairs containing the leaf. -/
def pairsClear (ps : List Pair) (o : Obj) : List Pair :=
  ps.filter fun p => !(decide (p.a = o) || decide (p.b = o))

/-- The tree field of one of the two indexes. -/
def World.tree (w : World F) (isStatic : Bool) : Option (Tree F) := if isStatic then w.stat else w.dyn
def World.setTree (w : World F) (isStatic : Bool) (t : Option (Tree F)) : World F :=
  if isStatic then { w with stat := t } else { w with dyn := t }
/-- The `leaves` field of one of the two indexes. -/
def World.set (w : World F) (isStatic : Bool) : HashSet Obj := if isStatic then w.statSet else w.dynSet
def World.setSet (w : World F) (isStatic : Bool) (t : HashSet Obj) : World F :=
  if isStatic then { w with statSet := t } else { w with dynSet := t }

/-- /repo/bbtree.go:130-144 `LeafAddPairs`. -/
def World.leafAddPairs (w : World F) (isStatic : Bool) (o : Obj) : Option (World F) :=
  if isStatic then
    -- dynamicIndex != nil
    match w.dyn with
    | none => some w
    | some d =>
      match (w.stat.bind fun t => t.path o []) with
      | none => none
      | some (l, _) => some { w with pairs := (markLeafQuery l true d ⟨w.pairs, []⟩).pairs }
  else
    match (w.dyn.bind fun t => t.path o []) with
    | none => none
    | some (l, p) =>
      some { w with pairs := (markLeaf w.stamp w.stat (fun _ _ c => c) l p ⟨w.pairs, []⟩).pairs }

/-- /repo/bbtree.go:83-85 `Count`. -/
def World.count (w : World F) (isStatic : Bool) : Nat := (w.set isStatic).count
/-- /repo/bbtree.go:87-91 `Each`: the shapes the callback sees. -/
def World.each (w : World F) (isStatic : Bool) : List Obj := (w.set isStatic).each
/-- /repo/bbtree.go:93-95 `Contains` (`none` would be an index panic). -/
def World.contains (h : Obj → Nat) (w : World F) (isStatic : Bool) (o : Obj) : Option Bool :=
  (HashSet.find leafEq (w.set isStatic) (h o) o).map Option.isSome

/-- /repo/bbtree.go:97-108 `Insert` (hash of shape `o` is `h o`). Faithful when `o` is not in this index: on a
present shape the Go code would link the existing leaf a second time. All theorems have that precondition, which
`Space.AddShape` guarantees (/repo/space.go:294-297). -/
def World.insert (h : Obj → Nat) (w : World F) (isStatic : Bool) (o : Obj) : Option (World F) :=
  match HashSet.insert leafEq (w.set isStatic) (h o) o o with
  | none => none
  | some (s, _) =>
    let l : Leaf F := { obj := o, bb := w.getBB isStatic o, stamp := w.stamp }
    let w := (w.setSet isStatic s).setTree isStatic (some (insRoot (w.tree isStatic) l))
    (w.leafAddPairs isStatic o).map fun w => { w with stamp := w.stamp + 1 }

/-- /repo/bbtree.go:310-316 `Remove`. -/
def World.remove (h : Obj → Nat) (w : World F) (isStatic : Bool) (o : Obj) : Option (World F) :=
  match HashSet.remove leafEq (w.set isStatic) (h o) o with
  | none => none
  | some (_, none) => none       -- leaf is nil: PairsClear dereferences nil
  | some (s, some _) =>
    match w.tree isStatic with
    | none => none
    | some t =>
      let w := (w.setSet isStatic s).setTree isStatic (t.rem o)
      some { w with pairs := pairsClear w.pairs o }

/-- /repo/bbtree.go:367-383 `LeafUpdate`; the Boolean is its result. -/
def World.leafUpdate (w : World F) (isStatic : Bool) (o : Obj) : Option (World F × Bool) :=
  match w.tree isStatic with
  | none => none
  | some t =>
    match t.path o [] with
    | none => none
    | some (l, _) =>
      if !l.bb.contains (w.box o) then
        let l' : Leaf F := { l with bb := w.getBB isStatic o, stamp := w.stamp }
        let w := w.setTree isStatic (some (insRoot (t.rem o) l'))
        some ({ w with pairs := pairsClear w.pairs o }, true)
      else some (w, false)

/-- /repo/bbtree.go:322-330 `ReindexObject`. -/
def World.reindexObject (h : Obj → Nat) (w : World F) (isStatic : Bool) (o : Obj) : Option (World F) :=
  match HashSet.find leafEq (w.set isStatic) (h o) o with
  | none => none
  | some none => some w
  | some (some _) =>
    match w.leafUpdate isStatic o with
    | none => none
    | some (w, upd) =>
      (if upd then w.leafAddPairs isStatic o else some w).map fun w => { w with stamp := w.stamp + 1 }

/-- /repo/bbtree.go:332-356 `ReindexQuery` on the dynamic tree, with the log of callback calls.
(`CollideStatic` at :352-354 runs only if the static tree is empty, and then does nothing:
/repo/spatialindex.go:60-66.) -/
def World.reindexQuery (w : World F) (f : PairFn) : Option (World F × List (Obj × Obj × Cid)) :=
  match w.dyn with
  | none => some (w, [])
  | some _ =>
    match w.dynSet.each.foldlM (fun (w : World F) o => (w.leafUpdate false o).map Prod.fst) w with
    | none => none
    | some w =>
      match w.dyn with
      | none => none
      | some t =>
        let m := markSubtree w.stamp w.stat f t [] ⟨w.pairs, []⟩
        some ({ w with pairs := m.pairs, stamp := w.stamp + 1 }, m.log)

/-- /repo/space.go:1028-1041 `queryFirst`. `hit o` is the outcome of the filter test, the sensor test and
`shape.SegmentQuery` (/repo/shape.go:205-229): `none` when one of them says no. -/
def queryFirst (hit : Obj → Option (SegInfo F)) (o : Obj) (out : SegInfo F) : SegInfo F × F :=
  match hit o with
  | none => (out, out.alpha)
  | some info => if info.alpha < out.alpha then (info, info.alpha) else (out, out.alpha)

/-- /repo/space.go:1053-1059 `Space.SegmentQueryFirst`. -/
def World.segmentQueryFirst (w : World F) (start stop : Vec F) (hit : Obj → Option (SegInfo F)) : SegInfo F :=
  let info := segQueryRoot start stop (queryFirst hit) w.stat 1 ⟨none, stop, ⟨0, 0⟩, 1⟩
  segQueryRoot start stop (queryFirst hit) w.dyn info.alpha info

/-- /repo/space.go:1017-1026 `segmentQuery`: the state is the list of callback calls so far. -/
def segmentQueryCb (hit : Obj → Option (SegInfo F)) (o : Obj) (log : List (Obj × SegInfo F)) :
    List (Obj × SegInfo F) × F :=
  match hit o with
  | none => (log, 1)
  | some info => (log ++ [(o, info)], 1)

/-- /repo/space.go:1043-1051 `Space.SegmentQuery`: the calls of the user's callback, in order. -/
def World.segmentQuery (w : World F) (start stop : Vec F) (hit : Obj → Option (SegInfo F)) :
    List (Obj × SegInfo F) :=
  let log := segQueryRoot start stop (segmentQueryCb hit) w.stat 1 []
  segQueryRoot start stop (segmentQueryCb hit) w.dyn 1 log

/-- The initial pair of indexes (/repo/space.go:71,101 with /repo/bbtree.go:71-78). -/
def World.init (box : Obj → BB F) (vel : Obj → Vec F) : Option (World F) :=
  match (HashSet.new : Option (HashSet Obj)) with
  | none => none
  | some s =>
    some { box := box, vel := vel, stat := none, dyn := none, statSet := s, dynSet := s, stamp := 0, pairs := [] }

/-- One event in the life of the indexes. `move` is any change of shape boxes and velocities from outside. -/
inductive WOp (F : Type) where
  | move (box : Obj → BB F) (vel : Obj → Vec F)
  | insert (isStatic : Bool) (o : Obj)
  | remove (isStatic : Bool) (o : Obj)
  | reindexObject (isStatic : Bool) (o : Obj)
  | reindexQuery (f : PairFn)

def World.step (h : Obj → Nat) (w : World F) : WOp F → Option (World F)
  | .move box vel => some { w with box := box, vel := vel }
  | .insert s o => w.insert h s o
  | .remove s o => w.remove h s o
  | .reindexObject s o => w.reindexObject h s o
  | .reindexQuery f => (w.reindexQuery f).map Prod.fst

end ops
end CP
