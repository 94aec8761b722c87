import Verif.Model.PairHeap

/-! # Specification of the pair lists

The live pairs, newest first. Nothing here mentions pointers (except that `PHist` runs the model on the same history). -/

namespace CP

/-- The effect of the calls on the live pairs: a new pair; no pair of `l` any more; the new collision ids of the pairs in which `l` is second. -/
def pairStep (ps : List Pair) : POp → List Pair
  | .insert a b => ⟨a, b, 0#32⟩ :: ps
  | .clear l => ps.filter fun p => decide (p.a ≠ l ∧ p.b ≠ l)
  | .mark l f => ps.map fun p => if p.b = l then { p with cid := f p.a l p.cid } else p

/-- A pair has two different leaves. -/
def POp.ok : POp → Prop
  | .insert a b => a ≠ b
  | _ => True

/-- A history of calls from the empty state. -/
inductive PHist : List Pair → PHeap → Prop
  | init : PHist [] .init
  | step {ps h h'} (op : POp) (p : PHist ps h) (hok : op.ok) (hs : h.step op = some h') : PHist (pairStep ps op) h'

/-- What a pair in memory holds: its leaves and its collision id. -/
def PHeap.holds (h : PHeap) (p : PId) (q : Pair) : Prop :=
  (h.pair p).a.leaf = some q.a ∧ (h.pair p).b.leaf = some q.b ∧ (h.pair p).cid = q.cid

end CP
