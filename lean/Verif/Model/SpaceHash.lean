import Verif.Model.BB
import Verif.Model.HashSet
import Verif.Model.Handlers
import Verif.Model.BBTree

/-! # The spatial hash: /repo/spacehash.go

A chain of bins is a list of handles; the pool of unused bins only recycles memory and is not modelled. Handles live in a
memory `hd`, because the code shares and recycles them: a handle id stands for a pointer. The set of handles is the model
of `/repo/hashset.go` with elements "shape and handle" (the shape of a handle in the set never changes: `Remove` clears it
only after taking the handle out). `sync.Pool` may return any pooled handle or a new one: a parameter `pick` chooses.
A panic (index out of range) is `none`. Stamps are natural numbers. Conversions from `float64` to `int` are assumed to be in
range. `SegmentQuery` is in Model/HashRay. -/

namespace CP
open GoFloat
variable {F : Type} [GoFloat F]

/-- /repo/spacehash.go:159-165 `floor`. -/
def goFloor (f : F) : Int :=
  let i := trunc f
  if f < 0 ∧ ofInt i ≠ f then i - 1 else i

/-- /repo/spacehash.go:334-336 `hashFunc`. -/
def cellIndex (n : Nat) (c : Int × Int) : Nat :=
  ((BitVec.ofInt 64 c.1 * 1640531513#64) ^^^ (BitVec.ofInt 64 c.2 * 2654435789#64)).toNat % n

/-- The values of `for i := l; i <= r; i++`. -/
def intRange (l r : Int) : List Int := (List.range (r - l + 1).toNat).map fun (k : Nat) => l + (k : Int)

/-- The cells of the double loops of /repo/spacehash.go:42-68, :167-203 and :205-221, in order. -/
def gridCells (dim : F) (bb : BB F) : List (Int × Int) :=
  (intRange (goFloor (bb.l / dim)) (goFloor (bb.r / dim))).flatMap fun i =>
    (intRange (goFloor (bb.b / dim)) (goFloor (bb.t / dim))).map fun j => (i, j)

/-- A handle id stands for a `*Handle`. -/
abbrev HId := Nat

/-- /repo/spacehash.go:338-342 `Handle`. -/
structure Hd where
  obj : Option Obj
  retains : Int
  stamp : Nat

/-- /repo/spacehash.go:8-21 `SpaceHash`. `next` is the first handle id that was never allocated. -/
structure SHash (F : Type) where
  numCells : Nat
  celldim : F
  table : List (List HId)
  set : HashSet (Obj × HId)
  hd : HId → Hd
  pool : List HId
  next : HId
  stamp : Nat

namespace SHash

/-- /repo/spacehash.go:28-30: equality of the handle set. -/
def eqv (o : Obj) (e : Obj × HId) : Bool := decide (o = e.1)

/-- /repo/spacehash.go:23-40 `NewSpaceHash`. The handles put into the pool there are as good as new ones. -/
def new (celldim : F) (num : Nat) : Option (SHash F) :=
  (HashSet.new : Option (HashSet (Obj × HId))).map fun set =>
    { numCells := num, celldim := celldim, table := List.replicate num [], set := set,
      hd := fun _ => ⟨none, 0, 0⟩, pool := [], next := 0, stamp := 1 }

def setHd (s : SHash F) (h : HId) (v : Hd) : SHash F := { s with hd := fun x => if x = h then v else s.hd x }

/-- /repo/spacehash.go:350-352 `retain`. -/
def retain (s : SHash F) (h : HId) : SHash F := s.setHd h { s.hd h with retains := (s.hd h).retains + 1 }

/-- /repo/spacehash.go:354-359 `release`. -/
def release (s : SHash F) (h : HId) : SHash F :=
  let s := s.setHd h { s.hd h with retains := (s.hd h).retains - 1 }
  if (s.hd h).retains = 0 then { s with pool := h :: s.pool } else s

/-- The table indexes of the cells of a box. -/
def cells (s : SHash F) (bb : BB F) : List Nat := (gridCells s.celldim bb).map (cellIndex s.numCells)

/-- /repo/spacehash.go:54-66: one turn of the loops of `hashHandle` (:324-332 `containsHandle`). -/
def hashCell (h : HId) (s : SHash F) (idx : Nat) : Option (SHash F) :=
  match s.table[idx]? with
  | none => none
  | some bin => if bin.contains h then some s
    else some { s.retain h with table := s.table.set idx (h :: bin) }

/-- /repo/spacehash.go:42-68 `hashHandle`. -/
def hashHandle (s : SHash F) (h : HId) (bb : BB F) : Option (SHash F) := (s.cells bb).foldlM (hashCell h) s

/-- `pooledHandles.Get()` (/repo/spacehash.go:86): the pooled handle at `pick`, or a new one if there is none. -/
def getHandle (s : SHash F) (pick : Nat) : HId × SHash F :=
  match s.pool[pick]? with
  | some h => (h, { s with pool := s.pool.eraseIdx pick })
  | none => (s.next, { s with next := s.next + 1 })

/-- /repo/spacehash.go:84-92 `Insert`, with :344-348 `Init`. The transform function runs only for a new shape. -/
def insert (hash : Obj → Nat) (s : SHash F) (o : Obj) (bb : BB F) (pick : Nat) : Option (SHash F) :=
  let (h, s') := s.getHandle pick
  let s' := (s'.setHd h ⟨some o, 0, 0⟩).retain h
  match HashSet.find eqv s.set (hash o) o with
  | none => none
  | some (some e) => s.hashHandle e.2 bb
  | some none =>
    match HashSet.insert eqv s.set (hash o) o (o, h) with
    | none => none
    | some (set, _) => { s' with set := set }.hashHandle h bb

/-- /repo/spacehash.go:97-100 and :113-115: forget the shape of a handle taken out of the set. -/
def orphan (s : SHash F) (h : HId) : SHash F := (s.setHd h { s.hd h with obj := none }).release h

/-- /repo/spacehash.go:94-101 `Remove`. -/
def remove (hash : Obj → Nat) (s : SHash F) (o : Obj) : Option (SHash F) :=
  match HashSet.remove eqv s.set (hash o) o with
  | none => none
  | some (_, none) => some s
  | some (set, some e) => some ({ s with set := set }.orphan e.2)

/-- /repo/spacehash.go:110-119 `ReindexObject`. -/
def reindexObject (hash : Obj → Nat) (s : SHash F) (o : Obj) (bb : BB F) (pick : Nat) : Option (SHash F) :=
  match HashSet.remove eqv s.set (hash o) o with
  | none => none
  | some (_, none) => some s
  | some (set, some e) => ({ s with set := set }.orphan e.2).insert hash o bb pick

/-- /repo/spacehash.go:74-78 `Each` and :80-82 `Contains`. -/
def each (s : SHash F) : List Obj := s.set.each.map Prod.fst
def contains (hash : Obj → Nat) (s : SHash F) (o : Obj) : Option Bool :=
  (HashSet.find eqv s.set (hash o) o).map Option.isSome

/-- /repo/spacehash.go:121-139 `removeOrphanedHandles`: the bins left. -/
def removeOrphans (s : SHash F) : List HId → SHash F × List HId
  | [] => (s, [])
  | h :: t =>
    if (s.hd h).obj = none then removeOrphans (s.release h) t
    else
      let r := removeOrphans s t
      (r.1, h :: r.2)

/-- What a callback does to the index it is called from. The space is locked, so it can only make queries: these count up the
stamp and stamp handles. (That such a query may also remove orphans from the chain being scanned is not modelled: `Callback`s
other than `quiet` are used only for the counterexamples, which have no orphans.) -/
abbrev Callback (F : Type) := Obj → SHash F → SHash F
/-- A callback that makes no queries. -/
def quiet : Callback F := fun _ s => s

/-- /repo/spacehash.go:143-150: the loop of `queryHelper`, up to the end (`false`) or the first orphan (`true`). `obj` is the
first argument of the callback if it is a shape; the calls of the callback are added to `log`. -/
def scan (cb : Callback F) (obj : Option Obj) : List HId → SHash F → List Obj → (SHash F × List Obj) × Bool
  | [], s, log => ((s, log), false)
  | h :: t, s, log =>
    if (s.hd h).stamp = s.stamp then scan cb obj t s log
    else
      match (s.hd h).obj with
      | none => ((s, log), true)
      | some other =>
        if obj = some other then scan cb obj t s log
        else
          let s := cb other s
          scan cb obj t (s.setHd h { s.hd h with stamp := s.stamp }) (log ++ [other])

/-- /repo/spacehash.go:141-157 `queryHelper`; the bins left, the state and the calls. `fuel` bounds the restarts (`none` would
mean that it restarts more often). -/
def queryHelper (cb : Callback F) (obj : Option Obj) : Nat → List HId → SHash F → List Obj → Option (List HId × SHash F × List Obj)
  | 0, _, _, _ => none
  | fuel + 1, bin, s, log =>
    match scan cb obj bin s log with
    | ((s, log), false) => some (bin, s, log)
    | ((s, log), true) =>
      let r := s.removeOrphans bin
      queryHelper cb obj fuel r.2 r.1 log

/-- /repo/spacehash.go:214-218: one turn of the loops of `Query`. -/
def queryCell (cb : Callback F) (obj : Option Obj) (st : SHash F × List Obj) (idx : Nat) : Option (SHash F × List Obj) :=
  match st.1.table[idx]? with
  | none => none
  | some bin => (queryHelper cb obj (bin.length + 1) bin st.1 st.2).map fun r =>
      ({ r.2.1 with table := r.2.1.table.set idx r.1 }, r.2.2)

/-- /repo/spacehash.go:205-221 `Query`. -/
def queryWith (s : SHash F) (cb : Callback F) (obj : Option Obj) (bb : BB F) : Option (SHash F × List Obj) :=
  ((s.cells bb).foldlM (queryCell cb obj) (s, [])).map fun r => ({ r.1 with stamp := r.1.stamp + 1 }, r.2)

/-- `Query` with a callback that makes no queries. -/
def query (s : SHash F) (obj : Option Obj) (bb : BB F) : Option (SHash F × List Obj) := s.queryWith quiet obj bb

/-- /repo/spacehash.go:366-378 `clearTableCell` and `clearTable`. -/
def clearTable (s : SHash F) : SHash F :=
  { s.table.flatten.foldl release s with table := s.table.map fun _ => [] }

/-- /repo/spacehash.go:103-108 `Reindex`: `bbfunc` is only called, its result is not used. -/
def reindex (s : SHash F) : SHash F := s.clearTable

/-- /repo/spacehash.go:180-197: one turn of the loops of `ReindexQuery` for the handle `h` of shape `o`. -/
def rehashCell (cb : Callback F) (o : Obj) (h : HId) (st : SHash F × List Obj) (idx : Nat) : Option (SHash F × List Obj) :=
  match st.1.table[idx]? with
  | none => none
  | some bin => if bin.contains h then some st
    else (queryHelper cb (some o) (bin.length + 1) bin (st.1.retain h) st.2).map fun r =>
      ({ r.2.1 with table := r.2.1.table.set idx (h :: r.1) }, r.2.2)

/-- /repo/spacehash.go:170-200: the function given to `Each` in `ReindexQuery`; the calls of the callback are pairs. -/
def rehash (cb : Callback F) (box : Obj → BB F) (st : SHash F × List (Obj × Obj)) (e : Obj × HId) : Option (SHash F × List (Obj × Obj)) :=
  ((st.1.cells (box e.1)).foldlM (rehashCell cb e.1 e.2) (st.1, [])).map fun r =>
    ({ r.1 with stamp := r.1.stamp + 1 }, st.2 ++ r.2.map fun x => (e.1, x))

/-- /repo/spatialindex.go:60-66 `CollideStatic`. -/
def collideStatic (box : Obj → BB F) (objs : List Obj) (stat : SHash F) : Option (SHash F × List (Obj × Obj)) :=
  if 0 < stat.set.count then
    objs.foldlM (fun (st : SHash F × List (Obj × Obj)) o =>
      (st.1.query (some o) (box o)).map fun r => (r.1, st.2 ++ r.2.map fun x => (o, x))) (stat, [])
  else some (stat, [])

/-- /repo/spacehash.go:167-203 `ReindexQuery` of the dynamic index: both indexes after it, and the calls of the callback. -/
def reindexQueryWith (cb : Callback F) (box : Obj → BB F) (dyn stat : SHash F) : Option (SHash F × SHash F × List (Obj × Obj)) :=
  match dyn.set.each.foldlM (rehash cb box) (dyn.clearTable, []) with
  | none => none
  | some (dyn, log) => (collideStatic box dyn.each stat).map fun r => (dyn, r.1, log ++ r.2)

/-- `ReindexQuery` with a callback that makes no queries of the dynamic index. -/
def reindexQuery (box : Obj → BB F) (dyn stat : SHash F) : Option (SHash F × SHash F × List (Obj × Obj)) :=
  reindexQueryWith quiet box dyn stat

end SHash

/-- The two indexes of a space with `UseSpatialHash` (/repo/space.go:881-894) and the current boxes of the shapes. -/
structure HWorld (F : Type) where
  box : Obj → BB F
  stat : SHash F
  dyn : SHash F

/-- Calls on the indexes. `move` is any change of the boxes from outside. -/
inductive HOp (F : Type) where
  | move (box : Obj → BB F)
  | insert (isStatic : Bool) (o : Obj) (pick : Nat)
  | remove (isStatic : Bool) (o : Obj)
  | reindexObject (isStatic : Bool) (o : Obj) (pick : Nat)
  | query (isStatic : Bool) (obj : Option Obj) (bb : BB F)
  | reindexQuery

namespace HWorld

/-- Two new indexes (/repo/space.go:882-883). -/
def init (box : Obj → BB F) (dim : F) (count : Nat) : Option (HWorld F) :=
  match (SHash.new dim count : Option (SHash F)) with
  | none => none
  | some s => some ⟨box, s, s⟩

def index (w : HWorld F) (isStatic : Bool) : SHash F := if isStatic then w.stat else w.dyn
def setIndex (w : HWorld F) (isStatic : Bool) (s : SHash F) : HWorld F :=
  if isStatic then { w with stat := s } else { w with dyn := s }

def step (hash : Obj → Nat) (w : HWorld F) : HOp F → Option (HWorld F)
  | .move box => some { w with box := box }
  | .insert st o pick => ((w.index st).insert hash o (w.box o) pick).map (w.setIndex st)
  | .remove st o => ((w.index st).remove hash o).map (w.setIndex st)
  | .reindexObject st o pick => ((w.index st).reindexObject hash o (w.box o) pick).map (w.setIndex st)
  | .query st obj bb => ((w.index st).query obj bb).map fun r => w.setIndex st r.1
  | .reindexQuery => (SHash.reindexQuery w.box w.dyn w.stat).map fun r => { w with dyn := r.1, stat := r.2.1 }

end HWorld
end CP
