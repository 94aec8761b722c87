import Verif.Model.PairHeap

/-! # The trees as pointers: all of /repo/bbtree.go on a memory of nodes

`Verif.Model.BBTree` has trees as values. Here a node id stands for a `*Node`: nodes have parent and child pointers, leave the trees
for the pools and come back. Pair lists are those of `Verif.Model.PairHeap`, with a leaf given by its node. `nil` is `none`;
dereferencing `nil` makes the function `none`. Nodes are named in the order of allocation: `next` is the first id never allocated.
Loops and recursions get as fuel the number of nodes ever allocated; running out of it gives `none` too.

`st` says which of the two indexes of the space is meant (`true`: the static one). -/

namespace CP
open GoFloat

/-- A node id stands for a `*Node`. -/
abbrev NId := Nat

/-- /repo/bbtree.go:7-14 `Node`, `Children`, `Leaf` without the field `pairs`, which is `PHeap.head`. -/
structure NRec (F : Type) where
  obj : Option Obj
  bb : BB F
  parent : Option NId
  a : Option NId
  b : Option NId
  stamp : Nat

/-- The nodes and `pooledNodes` (/repo/bbtree.go:65) of the two trees. -/
structure NMem (F : Type) where
  nd : NId → NRec F
  next : Nat
  pool : Bool → Option NId

/-- An entry of a table with one entry for each of the two indexes is overwritten. -/
def setAt {α : Type} (f : Bool → α) (st : Bool) (v : α) : Bool → α := fun i => if i = st then v else f i

variable {F : Type} [GoFloat F]

namespace NMem

/-- `&Node{}`. -/
def zero : NRec F := ⟨none, ⟨0, 0, 0, 0⟩, none, none, none, 0⟩

def init : NMem F := ⟨fun _ => zero, 0, fun _ => none⟩

/-- Overwriting `*n`. -/
def set (m : NMem F) (n : NId) (v : NRec F) : NMem F := { m with nd := fun x => if x = n then v else m.nd x }

/-- /repo/bbtree.go:523-526 `RecycleNode`. -/
def recycle (st : Bool) (m : NMem F) (n : NId) : NMem F :=
  let m1 := m.set n { m.nd n with parent := m.pool st }
  { m1 with pool := setAt m1.pool st (some n) }

/-- `&Node{}`: a new node. -/
def alloc (m : NMem F) : NId × NMem F := (m.next, { m.set m.next zero with next := m.next + 1 })

/-- /repo/bbtree.go:505-521 `NodeFromPool`. -/
def fromPool (st : Bool) (m : NMem F) : NId × NMem F :=
  match m.pool st with
  | some n => (n, { m with pool := setAt m.pool st (m.nd n).parent })
  | none =>
    let m := (List.range 1024).foldl (fun m _ => m.alloc.2.recycle st m.alloc.1) m
    let r := m.alloc
    (r.1, r.2.set r.1 { r.2.nd r.1 with parent := r.2.pool st })

/-- /repo/bbtree.go:484-487 `NodeSetA`. -/
def setA (m : NMem F) (n v : NId) : NMem F :=
  let m := m.set n { m.nd n with a := some v }
  m.set v { m.nd v with parent := some n }
/-- /repo/bbtree.go:489-492 `NodeSetB`. -/
def setB (m : NMem F) (n v : NId) : NMem F :=
  let m := m.set n { m.nd n with b := some v }
  m.set v { m.nd v with parent := some n }

/-- /repo/bbtree.go:473-482 `NewNode`. -/
def newNode (st : Bool) (m : NMem F) (a b : NId) : NMem F × NId :=
  let r := m.fromPool st
  let n := r.1
  let m := r.2
  let m := m.set n { m.nd n with obj := none, bb := (m.nd a).bb.merge (m.nd b).bb, parent := none }
  ((m.setA n a).setB n b, n)

/-- /repo/bbtree.go:494-503 `NewLeaf`; `bb` is `GetBB(obj)`. (`node.pairs = nil` is in `NWorld.insert`.) -/
def newLeaf (st : Bool) (m : NMem F) (o : Obj) (bb : BB F) : NMem F × NId :=
  let r := m.fromPool st
  let n := r.1
  let m := r.2
  (m.set n { m.nd n with obj := some o, bb := bb, parent := none, stamp := 0 }, n)

/-- /repo/bbtree.go:242-266 `SubtreeInsert`. -/
def insert (st : Bool) : Nat → NMem F → Option NId → NId → Option (NMem F × NId)
  | _, m, none, l => some (m, l)
  | 0, _, some _, _ => none
  | fuel + 1, m, some n, l =>
    if (m.nd n).obj.isSome then some (m.newNode st l n)
    else
      match (m.nd n).a, (m.nd n).b with
      | some a, some b =>
        if Tree.goesB (m.nd a).bb (m.nd b).bb (m.nd l).bb then
          match insert st fuel m (some b) l with
          | none => none
          | some (m, r) =>
            let m := m.setB n r
            some (m.set n { m.nd n with bb := (m.nd n).bb.merge (m.nd l).bb }, n)
        else
          match insert st fuel m (some a) l with
          | none => none
          | some (m, r) =>
            let m := m.setA n r
            some (m.set n { m.nd n with bb := (m.nd n).bb.merge (m.nd l).bb }, n)
      | _, _ => none

/-- /repo/bbtree.go:299-304 `Other`. -/
def other (m : NMem F) (n child : NId) : Option NId := if (m.nd n).a = some child then (m.nd n).b else (m.nd n).a

/-- /repo/bbtree.go:295-297: the loop of `ReplaceChild` that recomputes the boxes of the ancestors. -/
def refit : Nat → NMem F → Option NId → Option (NMem F)
  | _, m, none => some m
  | 0, _, some _ => none
  | fuel + 1, m, some n =>
    match (m.nd n).a, (m.nd n).b with
    | some a, some b =>
      let m := m.set n { m.nd n with bb := (m.nd a).bb.merge (m.nd b).bb }
      refit fuel m (m.nd n).parent
    | _, _ => none

/-- /repo/bbtree.go:285-297 `ReplaceChild`. -/
def replaceChild (st : Bool) (m : NMem F) (parent child value : NId) : Option (NMem F) :=
  if (m.nd parent).a = some child then refit m.next ((m.recycle st child).setA parent value) (some parent)
  else
    match (m.nd parent).b with
    | none => none
    | some b => refit m.next ((m.recycle st b).setB parent value) (some parent)

/-- /repo/bbtree.go:268-283 `SubtreeRemove`. (If `leaf.parent` is nil and is not the subtree, or the subtree is nil too, the code
dereferences nil.) -/
def remove (st : Bool) (m : NMem F) (subtree : Option NId) (l : NId) : Option (NMem F × Option NId) :=
  if some l = subtree then some (m, none)
  else
    match (m.nd l).parent with
    | none => none
    | some p =>
      if some p = subtree then
        match m.other p l with
        | none => none
        | some o =>
          let m := m.set o { m.nd o with parent := (m.nd p).parent }
          some (m.recycle st p, some o)
      else
        match (m.nd p).parent, m.other p l with
        | some g, some o => (m.replaceChild st g p o).map fun m => (m, subtree)
        | _, _ => none

/-- The shape of a node (nil for an inner node; the callbacks below are only given shapes of leaves). -/
def name (m : NMem F) (n : NId) : Obj := ((m.nd n).obj).getD 0

/-- /repo/bbtree.go:409-418 `SubtreeQuery`: the shapes the callback is called with, in order. -/
def query (m : NMem F) (q : BB F) : Nat → Option NId → Option (List Obj)
  | _, none => none
  | 0, some _ => none
  | fuel + 1, some n =>
    if (m.nd n).bb.intersects q then
      match (m.nd n).obj with
      | some o => some [o]
      | none =>
        match query m q fuel (m.nd n).a with
        | none => none
        | some l => (query m q fuel (m.nd n).b).map (l ++ ·)
    else some []

/-- /repo/bbtree.go:420-445 `SubtreeSegmentQuery`. The callback may keep state `S`. -/
def segQuery {S : Type} (m : NMem F) (p q : Vec F) (f : Obj → S → S × F) : Nat → Option NId → F → S → Option (S × F)
  | _, none, _, _ => none
  | 0, some _, _, _ => none
  | fuel + 1, some n, t, s =>
    match (m.nd n).obj with
    | some o => some (f o s)
    | none =>
      match (m.nd n).a, (m.nd n).b with
      | some a, some b =>
        let tA := (m.nd a).bb.segmentQuery p q
        let tB := (m.nd b).bb.segmentQuery p q
        let go := fun (c : NId) (tc : F) (st : S × F) =>
          if tc < st.2 then (segQuery m p q f fuel (some c) st.2 st.1).map fun r => (r.1, min st.2 r.2) else some st
        if tA < tB then (go a tA (s, t)).bind (go b tB) else (go b tB (s, t)).bind (go a tA)
      | _, _ => none

end NMem

/-- What marking changes: the pairs and the log of the calls of the callback. -/
structure PMark where
  ph : PHeap
  log : List (Obj × Obj × Cid)

namespace NMem

/-- The leaf case of `MarkLeafQuery` (/repo/bbtree.go:176-186). -/
def visit (m : NMem F) (l : NId) (left : Bool) (pm : PMark) (s : NId) : PMark :=
  if left then { pm with ph := pm.ph.insert l s }
  else
    let pm := if (m.nd s).stamp < (m.nd l).stamp then { pm with ph := pm.ph.insert s l } else pm
    { pm with log := pm.log ++ [(m.name l, m.name s, 0#32)] }

/-- /repo/bbtree.go:173-189 `MarkLeafQuery`. -/
def markLeafQuery (m : NMem F) (l : NId) (left : Bool) : Nat → Option NId → PMark → Option PMark
  | _, none, _ => none
  | 0, some _, _ => none
  | fuel + 1, some n, pm =>
    if (m.nd l).bb.intersects (m.nd n).bb then
      if (m.nd n).obj.isSome then some (m.visit l left pm n)
      else
        match markLeafQuery m l left fuel (m.nd n).a pm with
        | none => none
        | some pm => markLeafQuery m l left fuel (m.nd n).b pm
    else some pm

/-- /repo/bbtree.go:153-159: the loop of `MarkLeaf` over the ancestors of the leaf. -/
def markUp (m : NMem F) (l : NId) : Nat → NId → PMark → Option PMark
  | 0, _, _ => none
  | fuel + 1, n, pm =>
    match (m.nd n).parent with
    | none => some pm
    | some p =>
      if (m.nd p).a = some n then
        match markLeafQuery m l true m.next (m.nd p).b pm with
        | none => none
        | some pm => markUp m l fuel p pm
      else
        match markLeafQuery m l false m.next (m.nd p).a pm with
        | none => none
        | some pm => markUp m l fuel p pm

/-- /repo/bbtree.go:146-172 `MarkLeaf`. -/
def markLeaf (m : NMem F) (stamp : Nat) (statRoot : Option NId) (f : PairFn) (l : NId) (pm : PMark) : Option PMark :=
  if (m.nd l).stamp = stamp then
    match statRoot with
    | none => markUp m l m.next l pm
    | some r =>
      match markLeafQuery m l false m.next (some r) pm with
      | none => none
      | some pm => markUp m l m.next l pm
  else (pm.ph.mark l fun x y c => f (m.name x) (m.name y) c).map fun r =>
    ⟨r.1, pm.log ++ r.2.map fun e => (m.name e.1, m.name e.2.1, e.2.2)⟩

/-- /repo/bbtree.go:358-365 `MarkSubtree`. -/
def markSubtree (m : NMem F) (stamp : Nat) (statRoot : Option NId) (f : PairFn) : Nat → Option NId → PMark → Option PMark
  | _, none, _ => none
  | 0, some _, _ => none
  | fuel + 1, some n, pm =>
    if (m.nd n).obj.isSome then m.markLeaf stamp statRoot f n pm
    else
      match markSubtree m stamp statRoot f fuel (m.nd n).a pm with
      | none => none
      | some pm => markSubtree m stamp statRoot f fuel (m.nd n).b pm

/-- /repo/bbtree.go:71-73 `leafSetEql`. -/
def eql (m : NMem F) (o : Obj) (n : NId) : Bool := decide ((m.nd n).obj = some o)

end NMem

/-- The two indexes of a space (/repo/bbtree.go:58-69) and what they see of the shapes; `stamp` and the pool of pairs are those of the
dynamic tree, the master (/repo/bbtree.go:524-530). -/
structure NWorld (F : Type) where
  box : Obj → BB F
  vel : Obj → Vec F
  mem : NMem F
  root : Bool → Option NId
  leaves : Bool → HashSet NId
  stamp : Nat
  ph : PHeap

namespace NWorld

/-- /repo/bbtree.go:454-471 `GetBB`: the static tree has no velocity function. -/
def getBB (w : NWorld F) (st : Bool) (o : Obj) : BB F := if st then w.box o else fatBB (w.box o) (w.vel o)

/-- /repo/bbtree.go:130-144 `LeafAddPairs`. -/
def leafAddPairs (w : NWorld F) (st : Bool) (n : NId) : Option (NWorld F) :=
  if st then
    match w.root false with
    | none => some w
    | some d => (w.mem.markLeafQuery n true w.mem.next (some d) ⟨w.ph, []⟩).map fun pm => { w with ph := pm.ph }
  else (w.mem.markLeaf w.stamp (w.root true) (fun _ _ c => c) n ⟨w.ph, []⟩).map fun pm => { w with ph := pm.ph }

/-- /repo/bbtree.go:97-108 `Insert` (the hash of shape `o` is `h o`). -/
def insert (h : Obj → Nat) (w : NWorld F) (st : Bool) (o : Obj) : Option (NWorld F) :=
  match HashSet.find w.mem.eql (w.leaves st) (h o) o with
  | none => none
  | some found =>
    let r : NMem F × NId × PHeap := match found with
      | some n => (w.mem, n, w.ph)
      | none =>
        let c := w.mem.newLeaf st o (w.getBB st o)
        (c.1, c.2, w.ph.setHead c.2 none)
    match HashSet.insert r.1.eql (w.leaves st) (h o) o r.2.1 with
    | none => none
    | some (set, n) =>
      match r.1.insert st (r.1.next) (w.root st) n with
      | none => none
      | some (m, root) =>
        let m := m.set n { m.nd n with stamp := w.stamp }
        let w := { w with mem := m, root := setAt w.root st (some root), leaves := setAt w.leaves st set, ph := r.2.2 }
        (w.leafAddPairs st n).map fun w => { w with stamp := w.stamp + 1 }

/-- /repo/bbtree.go:310-316 `Remove`. -/
def remove (h : Obj → Nat) (w : NWorld F) (st : Bool) (o : Obj) : Option (NWorld F) :=
  match HashSet.remove w.mem.eql (w.leaves st) (h o) o with
  | none => none
  | some (_, none) => none
  | some (set, some n) =>
    match w.mem.remove st (w.root st) n, w.ph.clear n with
    | some (m, root), some ph =>
      some { w with mem := m.recycle st n, root := setAt w.root st root, leaves := setAt w.leaves st set, ph := ph }
    | _, _ => none

/-- /repo/bbtree.go:367-383 `LeafUpdate`. -/
def leafUpdate (w : NWorld F) (st : Bool) (n : NId) : Option (NWorld F × Bool) :=
  match (w.mem.nd n).obj with
  | none => none
  | some o =>
    if !(w.mem.nd n).bb.contains (w.box o) then
      let m := w.mem.set n { w.mem.nd n with bb := w.getBB st o }
      match m.remove st (w.root st) n with
      | none => none
      | some (m, root) =>
        match m.insert st m.next root n, w.ph.clear n with
        | some (m, root), some ph =>
          some ({ w with mem := m.set n { m.nd n with stamp := w.stamp }, root := setAt w.root st (some root), ph := ph }, true)
        | _, _ => none
    else some (w, false)

/-- /repo/bbtree.go:322-330 `ReindexObject`. -/
def reindexObject (h : Obj → Nat) (w : NWorld F) (st : Bool) (o : Obj) : Option (NWorld F) :=
  match HashSet.find w.mem.eql (w.leaves st) (h o) o with
  | none => none
  | some none => some w
  | some (some n) =>
    match w.leafUpdate st n with
    | none => none
    | some (w, upd) =>
      (if upd then w.leafAddPairs st n else some w).map fun w => { w with stamp := w.stamp + 1 }

/-- /repo/bbtree.go:332-356 `ReindexQuery` of the dynamic tree, with the log of the callback calls. (`CollideStatic` at :352-354 runs
only if the static tree is empty, and then does nothing: /repo/spatialindex.go:60-66.) -/
def reindexQuery (w : NWorld F) (f : PairFn) : Option (NWorld F × List (Obj × Obj × Cid)) :=
  match w.root false with
  | none => some (w, [])
  | some _ =>
    match (w.leaves false).each.foldlM (fun (w : NWorld F) n => (w.leafUpdate false n).map Prod.fst) w with
    | none => none
    | some w =>
      (w.mem.markSubtree w.stamp (w.root true) f w.mem.next (w.root false) ⟨w.ph, []⟩).map fun pm =>
        ({ w with ph := pm.ph, stamp := w.stamp + 1 }, pm.log)

/-- /repo/bbtree.go:83-85 `Count`. -/
def count (w : NWorld F) (st : Bool) : Nat := (w.leaves st).count
/-- /repo/bbtree.go:87-91 `Each`: the shapes the callback sees. -/
def each (w : NWorld F) (st : Bool) : List Obj := (w.leaves st).each.map w.mem.name
/-- /repo/bbtree.go:93-95 `Contains`. -/
def contains (h : Obj → Nat) (w : NWorld F) (st : Bool) (o : Obj) : Option Bool :=
  (HashSet.find w.mem.eql (w.leaves st) (h o) o).map Option.isSome
/-- /repo/bbtree.go:403-407 `BBTree.Query`. -/
def query (w : NWorld F) (st : Bool) (q : BB F) : Option (List Obj) :=
  match w.root st with
  | none => some []
  | some r => w.mem.query q w.mem.next (some r)
/-- /repo/bbtree.go:447-452 `BBTree.SegmentQuery`. -/
def segQuery {S : Type} (w : NWorld F) (st : Bool) (p q : Vec F) (f : Obj → S → S × F) (tExit : F) (s : S) : Option S :=
  match w.root st with
  | none => some s
  | some r => (w.mem.segQuery p q f w.mem.next (some r) tExit s).map Prod.fst

/-- /repo/space.go:1053-1059 `Space.SegmentQueryFirst`. -/
def segmentQueryFirst (w : NWorld F) (start stop : Vec F) (hit : Obj → Option (SegInfo F)) : Option (SegInfo F) :=
  match w.segQuery true start stop (queryFirst hit) 1 ⟨none, stop, ⟨0, 0⟩, 1⟩ with
  | none => none
  | some info => w.segQuery false start stop (queryFirst hit) info.alpha info

/-- The initial pair of indexes (/repo/bbtree.go:75-81, /repo/space.go:71). -/
def init (box : Obj → BB F) (vel : Obj → Vec F) : Option (NWorld F) :=
  match (HashSet.new : Option (HashSet NId)) with
  | none => none
  | some s => some { box := box, vel := vel, mem := .init, root := fun _ => none, leaves := fun _ => s, stamp := 0, ph := .init }

/-- One event in the life of the indexes. -/
def step (h : Obj → Nat) (w : NWorld F) : WOp F → Option (NWorld F)
  | .move box vel => some { w with box := box, vel := vel }
  | .insert s o => w.insert h s o
  | .remove s o => w.remove h s o
  | .reindexObject s o => w.reindexObject h s o
  | .reindexQuery f => (w.reindexQuery f).map Prod.fst

end NWorld
end CP
