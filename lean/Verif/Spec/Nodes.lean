import Verif.Spec.Index
import Verif.Model.NodeHeap

/-! # Specification of the memory of the indexes

Where a node is: reached by child pointers from the root of one of the two trees, or by parent pointers from the head of one of
the two pools. `Spec` (which shape is in which index, under which box) is that of `Verif.Spec.Index`. -/

namespace CP
open GoFloat
variable {F : Type} [GoFloat F]

/-- A legal history of the indexes in memory: every call was legal and none panicked. -/
inductive NHist (h : Obj → Nat) : Spec F → NWorld F → Prop
  | init (box : Obj → BB F) (vel : Obj → Vec F) (w : NWorld F) :
      NWorld.init box vel = some w → NHist h ⟨box, vel, fun _ _ => none⟩ w
  | step (s : Spec F) (w w' : NWorld F) (op : WOp F) :
      NHist h s w → s.ok op → w.step h op = some w' → NHist h (s.step op) w'

/-- The same where at no time more than `M st` shapes are in index `st`. -/
inductive NHistMax (h : Obj → Nat) (M : Bool → Nat) : Spec F → NWorld F → Prop
  | init (box : Obj → BB F) (vel : Obj → Vec F) (w : NWorld F) :
      NWorld.init box vel = some w → NHistMax h M ⟨box, vel, fun _ _ => none⟩ w
  | step (s : Spec F) (w w' : NWorld F) (op : WOp F) :
      NHistMax h M s w → s.ok op → w.step h op = some w' → (∀ st, w'.count st ≤ M st) → NHistMax h M (s.step op) w'

/-- The nodes reached from `r` by child pointers (leaves, which have a shape, have no children). -/
inductive Below (m : NMem F) (r : NId) : NId → Prop
  | root : Below m r r
  | left (n k : NId) : Below m r n → (m.nd n).obj = none → (m.nd n).a = some k → Below m r k
  | right (n k : NId) : Below m r n → (m.nd n).obj = none → (m.nd n).b = some k → Below m r k

/-- The nodes reached from the head of a pool by parent pointers. -/
inductive Chained (m : NMem F) (o : Option NId) : NId → Prop
  | head (n : NId) : o = some n → Chained m o n
  | next (n k : NId) : Chained m o n → (m.nd n).parent = some k → Chained m o k

/-- The places a node can be. -/
inductive Place where
  | tree (st : Bool)
  | pool (st : Bool)

def AtPlace (w : NWorld F) : Place → NId → Prop
  | .tree st, n => ∃ r, w.root st = some r ∧ Below w.mem r n
  | .pool st, n => Chained w.mem (w.mem.pool st) n

end CP
