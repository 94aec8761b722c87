import Verif.Props.Events
import Verif.Proofs.SpaceRouse2
import Verif.Proofs.SpaceRouse3

/-! # C49: who wakes, and whose idle time starts again -/

namespace CP
open Sp
variable {F : Type} [GoFloat F]

/-- Every public operation other than `Step`, `SetGravity` and `SetType`, in every reachable state: exactly the components of the
dynamic bodies that the operation disturbs wake; the idle times of these components, of the disturbed bodies themselves and
of the bodies (not static) that touch a disturbed body start again at zero; no other body falls asleep, wakes or gets
another idle time. -/
theorem C49_wakes {s : Sp F} (h : Reach s) (o : Op F) (ok : o.Allowed s) (hd : o.direct) : Stirred (o.disturbs s) s (s.after o) := by
  obtain ⟨L, w⟩ := h.world
  exact op_stirred w o ok hd (C44_no_panic h o ok).1

/-- The same in terms of `IsSleeping`: a sleeping body is awake afterwards exactly if it shares its component with a body that the
operation disturbs. -/
theorem C49_awake_iff {s : Sp F} (h : Reach s) (o : Op F) (ok : o.Allowed s) (hd : o.direct) (b : Nat) (hb : s.isSleeping b = true) :
    (s.after o).isSleeping b = false ↔ ∃ c, o.disturbs s c ∧ (s.bodies c).root = (s.bodies b).root := by
  obtain ⟨L, w⟩ := h.world
  have k := C49_wakes h o ok hd
  have hn : (s.bodies b).root ≠ none := by simpa [Sp.isSleeping, Option.isSome_iff_ne_none] using hb
  constructor
  · intro ha
    by_contra hno
    rw [Sp.isSleeping, k.asleep b (fun c hc _ q => hno ⟨c, hc, q.symm⟩)] at ha
    rw [Sp.isSleeping] at hb
    rw [hb] at ha; simp at ha
  · rintro ⟨c, hc, q⟩
    have hcn : (s.bodies c).root ≠ none := by rw [q]; exact hn
    simp [Sp.isSleeping, k.awake b c hc (w.good.inv.full.root_dynamic hcn).2 q.symm]

/-- These operations put nobody to sleep. -/
theorem C49_no_sleep {s : Sp F} (h : Reach s) (o : Op F) (ok : o.Allowed s) (hd : o.direct) (b : Nat) (hb : s.isSleeping b = false) :
    (s.after o).isSleeping b = false := by
  have k := C49_wakes h o ok hd
  have hn : (s.bodies b).root = none := by simpa [Sp.isSleeping] using hb
  by_cases hq : ∃ c, o.disturbs s c ∧ s.typ c = .dynamic ∧ (s.bodies b).root = (s.bodies c).root
  · obtain ⟨c, h1, h2, h3⟩ := hq
    simp [Sp.isSleeping, k.awake b c h1 h2 h3]
  · rw [Sp.isSleeping, k.asleep b (fun c h1 h2 h3 => hq ⟨c, h1, h2, h3⟩)]
    exact hb

/-- `SetType` to another type wakes nobody and puts nobody to sleep. The idle time of the body starts again. The idle times of the bodies
(not static) that touch it start again exactly if the body is in the space and a kinematic body becomes dynamic; all others
are kept. -/
theorem C49_setType {s : Sp F} (h : Reach s) (b : Nat) (ty : BType) (ok : (Op.setType b ty : Op F).Allowed s) (hne : s.typ b ≠ ty) :
    (∀ x, ((s.after (.setType b ty)).bodies x).root = (s.bodies x).root) ∧
    ((s.after (.setType b ty)).bodies b).idle = (if ty = .static then .infinity else .time 0) ∧
    (∀ x, x ≠ b → (s.bodies b).inSpace = true → s.typ b = .kinematic → ty = .dynamic → s.Touching b x → s.typ x ≠ .static →
      ((s.after (.setType b ty)).bodies x).idle = .time 0) ∧
    (∀ x, x ≠ b → ¬ ((s.bodies b).inSpace = true ∧ s.typ b = .kinematic ∧ ty = .dynamic ∧ s.Touching b x ∧ s.typ x ≠ .static) →
      ((s.after (.setType b ty)).bodies x).idle = (s.bodies x).idle) := by
  obtain ⟨L, w⟩ := h.world
  exact setType_idle w.good.inv.full ok.1 hne (C44_no_panic h _ ok).1

/-- `Step`: a sleeping body is awake afterwards exactly if a body of its component has a contact that the step hands to the solver;
otherwise it sleeps on in the same component. A body that wakes starts its idle time again. -/
theorem C49_step {s : Sp F} (h : Reach s) {i : StepIn F} (hdt : i.dt ≠ 0) (ok : StepOk s i)
    (q1 : ∀ y, i.sepActs y = []) (q2 : i.lateActs = []) (b : Nat) (hb : s.isSleeping b = true) :
    ((s.after (.step i)).isSleeping b = false ↔ ∃ p q, i.presses s p q ∧ (s.bodies (s.shapes p).body).root = (s.bodies b).root) ∧
    ((s.after (.step i)).isSleeping b = true → ((s.after (.step i)).bodies b).root = (s.bodies b).root) ∧
    ((s.after (.step i)).isSleeping b = false → ((s.after (.step i)).bodies b).idle = .time 0) := by
  obtain ⟨L, w⟩ := h.world
  have hn : (s.bodies b).root ≠ none := by simpa [Sp.isSleeping, Option.isSome_iff_ne_none] using hb
  obtain ⟨k1, k2, k3, -⟩ := step_wakes w.good w.unlocked w.host hdt ok q1 q2 (C44_no_panic h (.step i) ok).1
  simp only [Sp.isSleeping, Option.isSome_eq_false_iff, Option.isNone_iff_eq_none, Option.isSome_iff_ne_none]
  refine ⟨(k1 b hn).trans ⟨?_, ?_⟩, k2 b hn, k3 b hn⟩
  · rintro ⟨c, ⟨-, p, q, pr, rfl, -⟩, hr⟩
    exact ⟨p, q, pr, hr.symm⟩
  · rintro ⟨p, q, pr, hr⟩
    have hcn : (s.bodies (s.shapes p).body).root ≠ none := by rw [hr]; exact hn
    exact ⟨_, ⟨(w.good.inv.full.root_dynamic hcn).2, p, q, pr, rfl, .inl hcn⟩, hr.symm⟩

/-- `Step` with sleeping enabled and callbacks that wake nobody: the idle time of a body that is woken by a contact, or is joined to or
in contact with a kinematic body, is zero afterwards. Every other body either has the idle time that its speed gives it, or
was woken together with its component, or touches such a body. -/
theorem C49_step_idle {s : Sp F} (h : Reach s) {i : StepIn F} (hdt : i.dt ≠ 0) (ok : StepOk s i) (hc : i.calm)
    (hth : s.threshold ≠ .infinity) :
    (∀ b, i.pushes s b ∨ s.pulled b → ((s.after (.step i)).bodies b).idle = .time 0) ∧
    (∀ b, ((s.after (.step i)).bodies b).idle = i.idles s b ∨ (s.isSleeping b = true ∧ (s.after (.step i)).isSleeping b = false) ∨
      ∃ c, (i.pushes s c ∨ s.pulled c) ∧ (b = c ∨ (s.after (.step i)).Touching c b)) := by
  obtain ⟨L, w⟩ := h.world
  obtain ⟨-, -, -, k⟩ := step_wakes w.good w.unlocked w.host hdt ok hc.2.2.1 hc.2.2.2 (C44_no_panic h (.step i) ok).1
  obtain ⟨k1, k2⟩ := k hth
  refine ⟨k1, fun b => ?_⟩
  have := k2 hc b
  simpa only [Sp.isSleeping, Option.isSome_eq_false_iff, Option.isNone_iff_eq_none, Option.isSome_iff_ne_none] using this

/-! ## Concrete cases -/

theorem doze1_reach : Reach doze1 := by
  refine (C44_no_panic demo0_reach (.step dozeStep) ?_).2
  refine ⟨fun b hb => by simp [dozeStep] at hb, fun e he => ?_, by simp [dozeStep]⟩
  obtain rfl : e = demoPair := by simpa [dozeStep] using he
  exact ⟨by decide +kernel, by decide +kernel, by decide +kernel, by decide +kernel, by decide +kernel, fun b hb => by simp [demoPair] at hb⟩
theorem doze2_reach : Reach doze2 := (C44_no_panic doze1_reach (.step quietStep) (quietStep_ok _)).2

/-- Bodies 1 and 2 sleep; waking 1 wakes 2, adding a shape to body 1 too, adding body 3 wakes nobody. -/
example : Reach doze2 ∧ (Op.activate 1 : Op Rat).Allowed doze2 ∧ (Op.activate 1 : Op Rat).direct ∧ (Op.activate 1 : Op Rat).disturbs doze2 1 ∧
    doze2.isSleeping 2 = true ∧ (doze2.after (.activate 1)).isSleeping 2 = false ∧ (doze2.after (.addBody 3)).isSleeping 2 = true := by
  refine ⟨doze2_reach, trivial, trivial, rfl, by decide +kernel, by decide +kernel, by decide +kernel⟩

/-- Before body 3 runs into body 1. -/
def dozeB : Sp Rat := (doze2.after (.addBody 3)).after (.addShape 3)
theorem dozeB_reach : Reach dozeB := by
  refine (C44_no_panic ?_ (.addShape 3) ⟨by decide +kernel, fun _ => by decide +kernel⟩).2
  exact (C44_no_panic doze2_reach (.addBody 3) ⟨by decide +kernel, by decide +kernel⟩).2
theorem bumpStep_ok : StepOk dozeB bumpStep := by
  refine ⟨fun b hb => by simp [bumpStep] at hb, fun e he => ?_, by simp [bumpStep]⟩
  obtain rfl : e = bumpPair := by simpa [bumpStep] using he
  exact ⟨by decide +kernel, by decide +kernel, by decide +kernel, by decide +kernel, by decide +kernel, fun b hb => by simp [bumpPair] at hb⟩
/-- The contact wakes body 1 and with it body 2; a step without contacts wakes nobody. -/
example : bumpStep.presses dozeB 1 3 ∧ dozeB.isSleeping 2 = true ∧ (dozeB.after (.step bumpStep)).isSleeping 2 = false ∧
    (dozeB.after (.step quietStep)).isSleeping 2 = true := by
  refine ⟨⟨bumpPair, by rfl, by decide +kernel⟩, by decide +kernel, by decide +kernel, by decide +kernel⟩

/-- Body 1 is kinematic, bodies 2 and 3 are dynamic; all have been idle for one second. -/
def push0 : Sp Rat :=
  ((((((((newSpace 3 0 (fun b => if b = 1 then .kinematic else .dynamic) (fun i => (i, false)) (fun _ => (0, 0)) : Sp Rat).after (.addBody 1)).after
    (.addBody 2)).after (.addBody 3)).after (.addShape 1)).after (.addShape 2)).after (.addShape 3)).after (.setThreshold (.time 5))).after (.step quietStep)
/-- Bodies 1 and 2 touch. -/
def pushStep : StepIn Rat := { dt := 1, moving := fun _ => false, pairs := [demoPair] }
theorem push0_reach : Reach push0 := by
  refine (C44_no_panic ?_ (.step quietStep) (quietStep_ok _)).2
  refine (C44_no_panic ?_ (.setThreshold (.time 5)) (show (0 : Rat) < 5 by decide)).2
  refine (C44_no_panic ?_ (.addShape 3) ⟨by rfl, fun _ => by rfl⟩).2
  refine (C44_no_panic ?_ (.addShape 2) ⟨by rfl, fun _ => by rfl⟩).2
  refine (C44_no_panic ?_ (.addShape 1) ⟨by rfl, fun h => by revert h; decide +kernel⟩).2
  refine (C44_no_panic ?_ (.addBody 3) ⟨by rfl, by decide⟩).2
  refine (C44_no_panic ?_ (.addBody 2) ⟨by rfl, by decide⟩).2
  refine (C44_no_panic ?_ (.addBody 1) ⟨by rfl, by decide⟩).2
  exact .new 3 0 _ _ _
theorem pushStep_ok : StepOk push0 pushStep := by
  refine ⟨fun b hb => by simp [pushStep] at hb, fun e he => ?_, by simp [pushStep]⟩
  obtain rfl : e = demoPair := by simpa [pushStep] using he
  exact ⟨by decide +kernel, by decide +kernel, by decide +kernel, by decide +kernel, by decide +kernel, fun b hb => by simp [demoPair] at hb⟩
/-- The idle time of body 2 starts again because a kinematic body touches it, that of body 3 goes on. -/
example : pushStep.calm ∧ pushStep.pushes push0 2 ∧ (push0.bodies 2).idle = .time 1 ∧ ((push0.after (.step pushStep)).bodies 2).idle = .time 0 ∧
    ((push0.after (.step pushStep)).bodies 3).idle = .time 2 ∧ pushStep.idles push0 3 = .time 2 ∧ push0.threshold ≠ .infinity := by
  refine ⟨⟨rfl, fun d hd => ?_, fun _ => rfl, rfl⟩, ⟨by decide +kernel, 2, 1, ⟨demoPair, by rfl, by decide +kernel⟩, by decide +kernel, .inr (by decide +kernel)⟩,
    by decide +kernel, by decide +kernel, by decide +kernel, by decide +kernel, by decide +kernel⟩
  obtain rfl : d = demoPair := by simpa [pushStep] using hd
  exact ⟨rfl, rfl⟩

/-- The same with sleeping switched off: the idle time of body 2 is kept. -/
def push1 : Sp Rat := (push0.after (.setThreshold .infinity)).after (.step pushStep)
/-- When the kinematic body becomes dynamic, the idle time of the body that touches it starts again; when the dynamic body
becomes kinematic, that of its neighbours is kept. -/
example : push1.Touching 1 2 ∧ push1.typ 1 = .kinematic ∧ (push1.bodies 1).inSpace = true ∧ (push1.bodies 2).idle = .time 1 ∧ push1.typ 2 ≠ .static ∧
    ((push1.after (.setType 1 .dynamic)).bodies 2).idle = .time 0 ∧ ((push1.after (.setType 1 .static)).bodies 2).idle = .time 1 := by
  refine ⟨⟨[0], by decide +kernel, 0, by simp, by decide +kernel⟩, by decide +kernel, by decide +kernel, by decide +kernel, by decide +kernel,
    by decide +kernel, by decide +kernel⟩

end CP
