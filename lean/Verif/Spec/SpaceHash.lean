import Verif.Model.HashRay

/-! # Specification of the spatial hash

What a user knows: which shape is in which index and with which box it was last indexed. Nothing here mentions bins, handles, stamps,
retain counts or hash sets (except that `HHist` runs the model on the same history). -/

namespace CP
open GoFloat
variable {F : Type} [GoFloat F]

structure HSpec (F : Type) where
  box : Obj → BB F
  idx : Bool → Obj → Option (BB F)

/-- The only condition on calls: a shape is inserted when it is in neither index. -/
def HSpec.ok (s : HSpec F) : HOp F → Prop
  | .insert _ o _ => s.idx true o = none ∧ s.idx false o = none
  | _ => True

/-- The effect of the calls. -/
def HSpec.step (s : HSpec F) : HOp F → HSpec F
  | .move box => { s with box := box }
  | .insert st o _ => { s with idx := fun i x => if i = st ∧ x = o then some (s.box o) else s.idx i x }
  | .remove st o => { s with idx := fun i x => if i = st ∧ x = o then none else s.idx i x }
  | .reindexObject st o _ => { s with idx := fun i x => if i = st ∧ x = o then (s.idx i x).map fun _ => s.box x else s.idx i x }
  | .query _ _ _ => s
  | .reindexQuery => { s with idx := fun i x => if i = false then (s.idx i x).map fun _ => s.box x else s.idx i x }

/-- A history of legal calls on two empty indexes with cells of side `dim` and `count` buckets. -/
inductive HHist (hash : Obj → Nat) (dim : F) (count : Nat) : HSpec F → HWorld F → Prop
  | init {box w} (h : HWorld.init box dim count = some w) : HHist hash dim count ⟨box, fun _ _ => none⟩ w
  | step {sp w w'} (op : HOp F) (h : HHist hash dim count sp w) (hok : sp.ok op) (hs : w.step hash op = some w') :
      HHist hash dim count (sp.step op) w'
  /-- A segment query, with any callback that makes no queries itself, that ends. -/
  | ray {sp w} {σ : Type} (st : Bool) (fuel : Nat) (f : Obj → σ → σ × F) (c : σ) (a b : Vec F) (tExit : F) {r : SHash F × σ}
      (h : HHist hash dim count sp w) (hE : tExit ≤ 1) (hs : (w.index st).segmentQuery fuel f c a b tExit = some r) :
      HHist hash dim count sp (w.setIndex st r.1)

/-- The cell `(i, j)` of the grid meets the box. -/
def Covers (dim : F) (B : BB F) (i j : Int) : Prop :=
  goFloor (B.l / dim) ≤ i ∧ i ≤ goFloor (B.r / dim) ∧ goFloor (B.b / dim) ≤ j ∧ j ≤ goFloor (B.t / dim)

/-- A cell of one box and a cell of the other fall into the same bucket. -/
def Share (dim : F) (count : Nat) (A B : BB F) : Prop :=
  ∃ i j i' j', Covers dim A i j ∧ Covers dim B i' j' ∧ cellIndex count (i, j) = cellIndex count (i', j')

end CP
