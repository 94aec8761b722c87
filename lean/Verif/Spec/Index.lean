import Verif.Model.BBTree

/-!
# Specification of the spatial indexes

The abstract index: which shape is in which index, under which box. Nothing here mentions trees, pairs, stamps or
hash sets (except that `Hist` runs the model on the same history).
-/

namespace CP
open GoFloat
variable {F : Type} [GoFloat F]

/-- What a user knows about the two indexes: which shapes are in which index, and with which box they were last
indexed. `box`, `vel` are the current boxes and velocities. -/
structure Spec (F : Type) where
  box : Obj → BB F
  vel : Obj → Vec F
  /-- `idx isStatic o`: the box under which `o` is indexed. -/
  idx : Bool → Obj → Option (BB F)

/-- The box a shape gets when it is (re)indexed: its own box in the static index, a fattened one in the dynamic. -/
def Spec.fresh (s : Spec F) (isStatic : Bool) (o : Obj) : BB F :=
  if isStatic then s.box o else fatBB (s.box o) (s.vel o)

/-- Reindexing one shape: nothing happens while the current box is still inside the indexed one. -/
def Spec.refit (s : Spec F) (isStatic : Bool) (o : Obj) : Option (BB F) :=
  (s.idx isStatic o).map fun B => if B.contains (s.box o) then B else s.fresh isStatic o

/-- When a call is legal: insert an absent shape, remove a present one. -/
def Spec.ok (s : Spec F) : WOp F → Prop
  | .insert _ o => s.idx true o = none ∧ s.idx false o = none
  | .remove st o => s.idx st o ≠ none
  | _ => True

/-- Effect of the calls on the abstract index. -/
def Spec.step (s : Spec F) : WOp F → Spec F
  | .move box vel => { s with box := box, vel := vel }
  | .insert st o => { s with idx := fun i x => if i = st ∧ x = o then some (s.fresh st o) else s.idx i x }
  | .remove st o => { s with idx := fun i x => if i = st ∧ x = o then none else s.idx i x }
  | .reindexObject st o => { s with idx := fun i x => if i = st ∧ x = o then s.refit st o else s.idx i x }
  | .reindexQuery _ => { s with idx := fun i x => if i = false then s.refit false x else s.idx i x }

/-- Number of calls with `x` first and `y` second. -/
def cntL (log : List (Obj × Obj × Cid)) (x y : Obj) : Nat :=
  log.countP (fun e => decide (e.1 = x) && decide (e.2.1 = y))

/-- What `ReindexQuery` reports, in terms of the abstract index after the call. -/
structure Reports (s : Spec F) (log : List (Obj × Obj × Cid)) : Prop where
  /-- Calls are only made for two different shapes of the indexes, not both static. -/
  sound : ∀ e ∈ log, e.1 ≠ e.2.1 ∧ (s.idx true e.1 ≠ none ∨ s.idx false e.1 ≠ none) ∧
    (s.idx true e.2.1 ≠ none ∨ s.idx false e.2.1 ≠ none) ∧
    (s.idx false e.1 ≠ none ∨ s.idx false e.2.1 ≠ none)
  /-- Two dynamic shapes, or a static and a dynamic one, are reported exactly once if their indexed boxes intersect
  and not at all otherwise. -/
  exact : ∀ st x y X Y, x ≠ y → s.idx st x = some X → s.idx false y = some Y →
    cntL log x y + cntL log y x = if X.intersects Y = true then 1 else 0

/-- A legal history leading to an abstract state and a concrete one: every call was legal and none panicked
(`C07_no_panic` says exactly when a legal call panics). -/
inductive Hist (h : Obj → Nat) : Spec F → World F → Prop
  | init (box : Obj → BB F) (vel : Obj → Vec F) (w : World F) :
      World.init box vel = some w → Hist h ⟨box, vel, fun _ _ => none⟩ w
  | step (s : Spec F) (w w' : World F) (op : WOp F) :
      Hist h s w → s.ok op → w.step h op = some w' → Hist h (s.step op) w'

end CP
