import Verif.Props.Space

/-! # What goes wrong outside of the allowed histories

Each theorem starts from a reachable state, makes one call that `Op.Allowed` excludes, and shows the damage. They show
that the restrictions of `Op.Allowed` are needed, and describe defects of the code. -/

namespace CP
open Sp

/-- C20 fails if `SetType` is called on a sleeping body: the body is visited twice by `EachBody` (it stays in its
sleeping component and enters the list of static bodies). -/
theorem C20_setType_asleep_violated : Reach threeAsleep ∧ threeAsleep.isSleeping 1 = true ∧
    (threeAsleep.setType 1 .static).bind (fun t => t.eachBody) = some [1, 1, 2, 3] := by
  refine ⟨threeAsleep_reach, by decide +kernel, by decide +kernel⟩

/-- Two touching bodies that sleep, and a third one that is awake. -/
def napStep : StepIn Rat := { dt := 1, moving := fun b => b == 3, pairs := [demoPair] }
/-- Bodies and shapes 1, 2, 3, threshold 1. -/
def nap0 : Sp Rat :=
  ((((((((newSpace 3 1 (fun _ => .dynamic) (fun i => (i, false)) (fun _ => (1, 2)) : Sp Rat).after (.addBody 1)).after
    (.addBody 2)).after (.addBody 3)).after (.addShape 1)).after (.addShape 2)).after (.addShape 3)).after (.setThreshold (.time 1)))
/-- Bodies 1 and 2 asleep. -/
def nap1 : Sp Rat := nap0.after (.step napStep)

theorem nap0_reach : Reach nap0 := by
  refine (C44_no_panic ?_ (.setThreshold (.time 1)) (show (0 : Rat) < 1 by decide)).2
  refine (C44_no_panic ?_ (.addShape 3) ⟨by rfl, fun _ => by rfl⟩).2
  refine (C44_no_panic ?_ (.addShape 2) ⟨by rfl, fun _ => by rfl⟩).2
  refine (C44_no_panic ?_ (.addShape 1) ⟨by rfl, fun _ => by rfl⟩).2
  refine (C44_no_panic ?_ (.addBody 3) ⟨by rfl, by decide⟩).2
  refine (C44_no_panic ?_ (.addBody 2) ⟨by rfl, by decide⟩).2
  refine (C44_no_panic ?_ (.addBody 1) ⟨by rfl, by decide⟩).2
  exact .new ..

theorem nap1_reach : Reach nap1 := by
  refine (C44_no_panic nap0_reach (.step napStep) ⟨by simp [napStep], ?_, by simp [napStep]⟩).2
  intro e he
  obtain rfl : e = demoPair := by simpa [napStep] using he
  exact ⟨by decide +kernel, by decide +kernel, by decide +kernel, .inl (by decide +kernel), by decide, by simp [demoPair]⟩

/-- Shape 3 hits the sleeping body 1. -/
def wakePair : CollideIn := { a := 3, b := 1, count := 1 }

/-- The same step is fine if nobody calls `Activate`. -/
example : (nap1.step { dt := 1, moving := fun _ => true, pairs := [wakePair] }).isSome = true := by decide +kernel

/-- A Begin callback that wakes a sleeping body: its arbiters are threaded a second time when the lock is released, the
arbiter list becomes a cycle, and the step never ends. -/
theorem C44_wake_in_begin_hangs : Reach nap1 ∧
    nap1.step { dt := 1, moving := fun _ => true, pairs := [{ wakePair with beginActs := [1] }] } = none := by
  refine ⟨nap1_reach, ?_⟩
  have h : (nap1.step { dt := 1, moving := fun _ => true, pairs := [{ wakePair with beginActs := [1] }] }).isNone = true := by
    decide +kernel
  simpa using h

/-- The step after which the list of a body is a cycle. -/
def offStep : StepIn Rat := { dt := 1, moving := fun _ => true, pairs := [wakePair] }
/-- The threshold is switched off while bodies sleep, then the awake body touches a sleeping one for two steps. -/
def cyclic : Option (Sp Rat) := do
  let s ← ({ nap1 with threshold := .infinity } : Sp Rat).step offStep
  s.step offStep

/-- Switching the threshold off while bodies sleep: after two steps of contact between an awake and a sleeping body the
arbiter list of the awake body is a cycle of length one, so `EachArbiter` never ends. -/
theorem C27_threshold_off_cycle : Reach nap1 ∧ nap1.sleeping ≠ [] ∧
    (cyclic.map fun s => ((s.bodies 3).arbs, s.arbNext 3 1, s.arbList 3)) = some (some 1, some 1, none) := by
  refine ⟨nap1_reach, by decide +kernel, by decide +kernel⟩

/-- A static body that a sleeping body touches is turned into a dynamic one: nothing is woken, and the arbiter is not
given back when the body wakes. Here body 1 sleeps on the static body 4. -/
def ledge0 : Sp Rat :=
  ((((((newSpace 4 1 (fun b => if b = 4 then .static else .dynamic) (fun i => (i, false)) (fun _ => (4, 1)) : Sp Rat).after
    (.addBody 1)).after (.addBody 4)).after (.addConstraint 0)).after (.setThreshold (.time 1))).after (.step quietStep))

theorem ledge0_reach : Reach ledge0 := by
  refine (C44_no_panic ?_ (.step quietStep) (quietStep_ok _)).2
  refine (C44_no_panic ?_ (.setThreshold (.time 1)) (show (0 : Rat) < 1 by decide)).2
  refine (C44_no_panic ?_ (.addConstraint 0) ⟨by rfl, by decide, by decide, fun _ => by rfl, fun _ => by rfl⟩).2
  refine (C44_no_panic ?_ (.addBody 4) ⟨by rfl, by decide⟩).2
  refine (C44_no_panic ?_ (.addBody 1) ⟨by rfl, by decide⟩).2
  exact .new ..

/-- `SetType(dynamic)` of a static body that is joined to a sleeping body: after waking everything the joint is in the
space but `Space.EachConstraint` (and the solver) no longer sees it. -/
theorem C26_setType_static_loses_joint : Reach ledge0 ∧ ledge0.isSleeping 1 = true ∧
    (((ledge0.setType 4 .dynamic).bind fun s => s.bodyActivate 1).map
      fun s => ((s.cons 0).inSpace, s.sleeping, s.constraints)) = some (true, [], []) := by
  refine ⟨ledge0_reach, by decide +kernel, by decide +kernel⟩

end CP
