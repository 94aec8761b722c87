import Verif.Model.BBTree

/-! # The pair lists as pointers: /repo/bbtree.go:25-56, :190-240, :384-401 and the loop :161-169

Pairs live in a memory; a pair id stands for a `*Pair`, a leaf for its shape (`*Node`: there is one leaf for a shape in the
index). `nil` is `none`; dereferencing `nil` makes the function `none`. Pairs are given by their ids in the order of
allocation: `next` is the first id never allocated. -/

namespace CP

/-- A pair id stands for a `*Pair`. -/
abbrev PId := Nat

/-- /repo/bbtree.go:30-33 `Thread`. -/
structure Thr where
  prev : Option PId
  next : Option PId
  leaf : Option Obj

/-- /repo/bbtree.go:25-28 `Pair`. -/
structure PairC where
  a : Thr
  b : Thr
  cid : Cid

/-- The pairs, the field `pairs` of the leaves (/repo/bbtree.go:22) and `pooledPairs` (:66). -/
structure PHeap where
  pair : PId → PairC
  head : Obj → Option PId
  pool : Option PId
  next : PId

namespace PHeap

/-- `&Pair{}`. -/
def zero : PairC := ⟨⟨none, none, none⟩, ⟨none, none, none⟩, 0#32⟩

def init : PHeap := ⟨fun _ => zero, fun _ => none, none, 0⟩

def setPair (h : PHeap) (p : PId) (v : PairC) : PHeap := { h with pair := fun x => if x = p then v else h.pair x }
def setHead (h : PHeap) (l : Obj) (v : Option PId) : PHeap := { h with head := fun x => if x = l then v else h.head x }

/-- Write through the thread chosen by `if p.a.leaf == leaf { p.a } else { p.b }` (/repo/bbtree.go:40-44, :48-52, :202-214). -/
def upd (h : PHeap) (p : PId) (l : Option Obj) (f : Thr → Thr) : PHeap :=
  if (h.pair p).a.leaf = l then h.setPair p { h.pair p with a := f (h.pair p).a } else h.setPair p { h.pair p with b := f (h.pair p).b }

def updO (h : PHeap) (p : Option PId) (l : Option Obj) (f : Thr → Thr) : PHeap :=
  match p with
  | none => h
  | some p => h.upd p l f

/-- /repo/bbtree.go:35-56 `Unlink`. -/
def unlink (h : PHeap) (t : Thr) : Option PHeap :=
  let h := h.updO t.next t.leaf fun x => { x with prev := t.prev }
  match t.prev with
  | some q => some (h.upd q t.leaf fun x => { x with next := t.next })
  | none => t.leaf.map fun l => h.setHead l t.next

/-- /repo/bbtree.go:236-240 `RecyclePair`. -/
def recycle (h : PHeap) (p : PId) : PHeap :=
  { h.setPair p { h.pair p with a := { (h.pair p).a with next := h.pool } } with pool := some p }

/-- `&Pair{}`: a new pair. -/
def alloc (h : PHeap) : PId × PHeap := (h.next, { h.setPair h.next zero with next := h.next + 1 })

/-- /repo/bbtree.go:218-234 `PairFromPool`. -/
def fromPool (h : PHeap) : PId × PHeap :=
  match h.pool with
  | some p => (p, { h with pool := (h.pair p).a.next })
  | none => ((List.range 1024).foldl (fun h _ => h.alloc.2.recycle h.alloc.1) h).alloc

/-- /repo/bbtree.go:190-216 `PairInsert`. -/
def insert (h : PHeap) (a b : Obj) : PHeap :=
  let nextA := h.head a
  let nextB := h.head b
  let (p, h) := h.fromPool
  let h := h.setPair p ⟨⟨none, nextA, some a⟩, ⟨none, nextB, some b⟩, 0#32⟩
  let h := (h.setHead a (some p)).setHead b (some p)
  let h := h.updO nextA (some a) fun t => { t with prev := some p }
  h.updO nextB (some b) fun t => { t with prev := some p }

/-- /repo/bbtree.go:388-400: the loop of `PairsClear`; `fuel` bounds its turns. -/
def clearLoop (l : Obj) : Nat → Option PId → PHeap → Option PHeap
  | _, none, h => some h
  | 0, some _, _ => none
  | fuel + 1, some p, h =>
    if (h.pair p).a.leaf = some l then
      let next := (h.pair p).a.next
      match h.unlink (h.pair p).b with
      | none => none
      | some h => clearLoop l fuel next (h.recycle p)
    else
      let next := (h.pair p).b.next
      match h.unlink (h.pair p).a with
      | none => none
      | some h => clearLoop l fuel next (h.recycle p)

/-- /repo/bbtree.go:384-401 `PairsClear`. -/
def clear (h : PHeap) (l : Obj) : Option PHeap := clearLoop l h.next (h.head l) (h.setHead l none)

/-- /repo/bbtree.go:161-169: the loop of `MarkLeaf` over the pairs of a leaf whose stamp is old. -/
def markLoop (l : Obj) (f : PairFn) : Nat → Option PId → PHeap × List (Obj × Obj × Cid) → Option (PHeap × List (Obj × Obj × Cid))
  | _, none, st => some st
  | 0, some _, _ => none
  | fuel + 1, some p, (h, log) =>
    if (h.pair p).b.leaf = some l then
      match (h.pair p).a.leaf with
      | none => none
      | some x =>
        let h' := h.setPair p { h.pair p with cid := f x l (h.pair p).cid }
        markLoop l f fuel (h'.pair p).b.next (h', log ++ [(x, l, (h.pair p).cid)])
    else markLoop l f fuel (h.pair p).a.next (h, log)

def mark (h : PHeap) (l : Obj) (f : PairFn) : Option (PHeap × List (Obj × Obj × Cid)) := markLoop l f h.next (h.head l) (h, [])

/-- Follow the list of a leaf as `MarkLeaf` does (/repo/bbtree.go:161-169). -/
def follow (h : PHeap) (l : Obj) : Nat → Option PId → Option (List PId)
  | _, none => some []
  | 0, some _ => none
  | fuel + 1, some p =>
    (h.follow l fuel (if (h.pair p).b.leaf = some l then (h.pair p).b.next else (h.pair p).a.next)).map (p :: ·)

/-- The pairs in the list of a leaf. -/
def pairsOf (h : PHeap) (l : Obj) : Option (List PId) := h.follow l h.next (h.head l)

/-- Follow the pool as `PairFromPool` does (/repo/bbtree.go:223-226). -/
def followPool (h : PHeap) : Nat → Option PId → Option (List PId)
  | _, none => some []
  | 0, some _ => none
  | fuel + 1, some p => (h.followPool fuel (h.pair p).a.next).map (p :: ·)

def pooled (h : PHeap) : Option (List PId) := h.followPool h.next h.pool

end PHeap

/-- Calls on the pairs. -/
inductive POp where
  | insert (a b : Obj)
  | clear (l : Obj)
  | mark (l : Obj) (f : PairFn)

def PHeap.step (h : PHeap) : POp → Option PHeap
  | .insert a b => some (h.insert a b)
  | .clear l => h.clear l
  | .mark l f => (h.mark l f).map Prod.fst

end CP
