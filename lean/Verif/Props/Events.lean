import Verif.Proofs.SpaceEvents6
import Verif.Props.Space

/-! # C23: exactly which collision callbacks are called

`PairSt` (Verif/Spec/Events.lean) is an automaton with four states for every pair of shapes. The theorems say that the
callbacks of the pair and its next state are the ones of the automaton in every operation of every history. In a step the
callbacks Separate and PostSolve and the functions after the collision phase are assumed to wake no body (`q1`, `q2`);
C23_protocol (Verif/Props/Space.lean) has no such assumption. -/

namespace CP
variable {F : Type} [GoFloat F]
open Sp

theorem Sp.after_eq {s t : Sp F} {o : Op F} (e : o.run s = some t) : s.after o = t := by rw [Sp.after, e]; rfl

/-- In a new space every pair is apart and no callback was called. -/
theorem C23_new (nb nc : Nat) (ty : Nat → BType) (sh : Nat → Nat × Bool) (co : Nat → Nat × Nat) (p q : Nat) :
    (newSpace nb nc ty sh co : Sp F).pairSt p q = .apart ∧ (newSpace nb nc ty sh co : Sp F).trace = [] := by
  refine ⟨?_, rfl⟩
  simp [pairSt, arbOf, newSpace]

/-- The pair is apart exactly when every Begin of it has been followed by its Separate. -/
theorem C23_state {s : Sp F} (h : Reach s) (p q : Nat) : proto p q s.trace = some (decide (s.pairSt p q ≠ .apart)) := by
  obtain ⟨L, w⟩ := h.world
  obtain ⟨z, e, hz⟩ := w.good.tr.agree p q
  rw [e]
  congr 1
  rw [Bool.eq_iff_iff, hz, decide_eq_true_iff, Ne, pairSt_apart_iff w.good.inv]
  simp

/-- One step: the callbacks of every pair and its state afterwards. -/
theorem C23_step {s : Sp F} (h : Reach s) {i : StepIn F} (hdt : i.dt ≠ 0) (ok : StepOk s i)
    (q1 : ∀ y, i.sepActs y = []) (q2 : i.lateActs = []) :
    ∃ new, (s.after (.step i)).trace = s.trace ++ new ∧ ∀ p q, (word p q new, (s.after (.step i)).pairSt p q) =
      match i.contact p q with
      | some d => (s.pairSt p q).onContact d (s.inert p q) ((s.after (.step i)).rests p q)
      | none => (s.pairSt p q).onNone (s.frozen p q) ((s.after (.step i)).rests p q) := by
  obtain ⟨L, w⟩ := h.world
  obtain ⟨t, e, r⟩ := step_events w.good w.unlocked w.host hdt ok q1 q2
  rw [Sp.after_eq (o := .step i) e]
  exact r

/-- A step of length zero does nothing at all. -/
theorem C23_step_zero (s : Sp F) {i : StepIn F} (hdt : i.dt = 0) : s.after (.step i) = s :=
  Sp.after_eq (o := .step i) (by show s.step i = some s; simp only [step, if_pos hdt])

/-- Removing a shape: one Separate for every pair of it that is not apart, nothing for the others, which stay as they
are. -/
theorem C23_remove {s : Sp F} (h : Reach s) {sh : Nat} (hs : (s.shapes sh).inSpace = true) (acts : Nat → List Nat) :
    ∃ new, (s.after (.removeShape sh acts)).trace = s.trace ++ new ∧
      ∀ p q, (word p q new, (s.after (.removeShape sh acts)).pairSt p q) =
        if p = sh ∨ q = sh then (if s.pairSt p q = .apart then [] else [.separate], .apart) else ([], s.pairSt p q) := by
  obtain ⟨L, w⟩ := h.world
  obtain ⟨t, e, r⟩ := remove_events w hs acts
  rw [Sp.after_eq (o := .removeShape sh acts) e]
  exact r

/-- All other operations call no collision callback and change the state of no pair. -/
theorem C23_quiet {s : Sp F} (h : Reach s) (o : Op F) (ok : o.Allowed s) (hq : o.loud = false) :
    (s.after o).trace = s.trace ∧ ∀ p q, (s.after o).pairSt p q = s.pairSt p q := by
  obtain ⟨L, w⟩ := h.world
  obtain ⟨t, e, r⟩ := op_quiet w o ok hq
  rw [Sp.after_eq e]
  exact r

/-! ## Readings of the step theorem -/

/-- Begin is called exactly in the steps in which the shapes have contacts and were apart, and then once. -/
theorem C23_begin {s : Sp F} (h : Reach s) {i : StepIn F} (hdt : i.dt ≠ 0) (ok : StepOk s i)
    (q1 : ∀ y, i.sepActs y = []) (q2 : i.lateActs = []) :
    ∃ new, (s.after (.step i)).trace = s.trace ++ new ∧ ∀ p q, (word p q new).count .begin =
      if (i.contact p q).isSome ∧ s.pairSt p q = .apart then 1 else 0 := by
  obtain ⟨new, e, r⟩ := C23_step h hdt ok q1 q2
  refine ⟨new, e, fun p q => ?_⟩
  have hw := congrArg Prod.fst (r p q)
  simp only at hw
  rw [hw]
  cases i.contact p q with
  | none =>
    cases hσ : s.pairSt p q <;> simp only [PairSt.onNone] <;> split_ifs <;> simp_all
  | some d =>
    simp only [PairSt.onContact, Option.isSome_some, true_and]
    by_cases hσ : s.pairSt p q = .apart
    · simp only [hσ, decide_true, if_true, List.count_append]
      split_ifs <;> simp
    · simp only [hσ, decide_false, Bool.false_eq_true, if_false, List.count_append]
      split_ifs <;> simp

/-- PreSolve is called exactly in the steps in which the shapes have contacts that are not ignored: neither from an
earlier step nor by the Begin of this step. -/
theorem C23_preSolve {s : Sp F} (h : Reach s) {i : StepIn F} (hdt : i.dt ≠ 0) (ok : StepOk s i)
    (q1 : ∀ y, i.sepActs y = []) (q2 : i.lateActs = []) :
    ∃ new, (s.after (.step i)).trace = s.trace ++ new ∧ ∀ p q, (word p q new).count .preSolve =
      match i.contact p q with
      | none => 0
      | some d => if s.pairSt p q = .ignored ∨ (s.pairSt p q = .apart ∧ (d.beginRet = false ∨ d.beginIgnore = true)) then 0 else 1 := by
  obtain ⟨new, e, r⟩ := C23_step h hdt ok q1 q2
  refine ⟨new, e, fun p q => ?_⟩
  have hw := congrArg Prod.fst (r p q)
  simp only at hw
  rw [hw]
  cases i.contact p q with
  | none =>
    cases hσ : s.pairSt p q <;> simp only [PairSt.onNone] <;> (try split_ifs) <;> simp_all
  | some d =>
    simp only [PairSt.onContact]
    cases hσ : s.pairSt p q <;> cases hb : d.beginRet <;> cases hc : d.beginIgnore <;> simp <;> split_ifs <;> simp

/-- Separate is called exactly in the steps in which the shapes have no contacts, were not apart, are not both at rest
afterwards, and were not both at rest before in the solver: then once. -/
theorem C23_separate {s : Sp F} (h : Reach s) {i : StepIn F} (hdt : i.dt ≠ 0) (ok : StepOk s i)
    (q1 : ∀ y, i.sepActs y = []) (q2 : i.lateActs = []) :
    ∃ new, (s.after (.step i)).trace = s.trace ++ new ∧ ∀ p q, (word p q new).count .separate =
      if i.contact p q = none ∧ s.pairSt p q ≠ .apart ∧ (s.after (.step i)).rests p q = false ∧
        ¬ (s.pairSt p q = .active ∧ s.frozen p q = true) then 1 else 0 := by
  obtain ⟨new, e, r⟩ := C23_step h hdt ok q1 q2
  refine ⟨new, e, fun p q => ?_⟩
  have hw := congrArg Prod.fst (r p q)
  simp only at hw
  rw [hw]
  cases i.contact p q with
  | none =>
    cases hσ : s.pairSt p q <;> simp only [PairSt.onNone] <;> split_ifs <;> simp_all
  | some d =>
    simp only [PairSt.onContact, reduceCtorEq, false_and, if_false, List.count_append]
    split_ifs <;> simp

/-- PostSolve is called exactly for the pairs the solver works on in the step: those that are in its hands afterwards and
whose bodies are not both at rest. -/
theorem C23_postSolve {s : Sp F} (h : Reach s) {i : StepIn F} (hdt : i.dt ≠ 0) (ok : StepOk s i)
    (q1 : ∀ y, i.sepActs y = []) (q2 : i.lateActs = []) :
    ∃ new, (s.after (.step i)).trace = s.trace ++ new ∧ ∀ p q, (word p q new).count .postSolve =
      if (s.after (.step i)).pairSt p q = .active ∧ (s.after (.step i)).rests p q = false then 1 else 0 := by
  obtain ⟨new, e, r⟩ := C23_step h hdt ok q1 q2
  refine ⟨new, e, fun p q => ?_⟩
  have hw := congrArg Prod.fst (r p q)
  have hs := congrArg Prod.snd (r p q)
  simp only at hw hs
  rw [hw, hs]
  cases i.contact p q with
  | none =>
    cases hσ : s.pairSt p q <;> simp only [PairSt.onNone] <;> split_ifs <;> simp_all
  | some d =>
    generalize s.pairSt p q = σ, s.inert p q = a, (s.after (.step i)).rests p q = b
    obtain ⟨_, _, _, br, bi, _, pr, pi, _, _⟩ := d
    cases σ <;> cases br <;> cases bi <;> cases pr <;> cases pi <;> cases a <;> cases b <;> rfl

/-! ## Concrete histories -/

/-- The pair begins, is solved and separates. -/
example : demo0.pairSt 1 2 = .apart ∧ (demoStep.contact 1 2).isSome ∧ demo0.inert 1 2 = false ∧ demo1.pairSt 1 2 = .active ∧
    demo1.rests 1 2 = false ∧ demo2.pairSt 1 2 = .apart ∧ (quietStep.contact 1 2).isNone ∧
    (∀ y, demoStep.sepActs y = []) ∧ demoStep.lateActs = [] := by
  refine ⟨by decide +kernel, by decide +kernel, by decide +kernel, by decide +kernel, by decide +kernel, by decide +kernel,
    by decide +kernel, fun _ => rfl, rfl⟩

/-- PreSolve says: ignore until the shapes separate. -/
def ignorePair : CollideIn := { a := 1, b := 2, count := 1, preIgnore := true }
/-- The step of it. -/
def ignoreStep : StepIn Rat := { dt := 1, moving := fun _ => true, pairs := [ignorePair] }
/-- The contacts of the pair are ignored. -/
def ignored1 : Sp Rat := demo0.after (.step ignoreStep)
/-- The pair touches again and is still ignored. -/
def ignored2 : Sp Rat := ignored1.after (.step demoStep)

example : ignored1.pairSt 1 2 = .ignored ∧ ignored2.pairSt 1 2 = .ignored ∧
    word 1 2 ignored2.trace = [.begin, .preSolve] := by
  refine ⟨by decide +kernel, by decide +kernel, by decide +kernel⟩

/-- The pair in contact whose bodies fall asleep in that step: no PostSolve. -/
def dozeStep : StepIn Rat := { dt := 2, moving := fun _ => false, pairs := [demoPair] }
/-- Asleep in contact. -/
def doze1 : Sp Rat := demo0.after (.step dozeStep)
/-- Still asleep: no callback. -/
def doze2 : Sp Rat := doze1.after (.step quietStep)
/-- Woken by the program before the step: their contacts are tested again, there are none. -/
def doze3 : Sp Rat := (doze2.after (.activate 1)).after (.step { quietStep with moving := fun _ => true })
/-- A third body runs into the first one while both sleep. -/
def bumpPair : CollideIn := { a := 3, b := 1, count := 1 }
/-- The step of it. -/
def bumpStep : StepIn Rat := { dt := 1, moving := fun _ => true, pairs := [bumpPair] }
/-- The sleeping bodies are woken by the collision: PostSolve of the pair without PreSolve. -/
def doze4 : Sp Rat := ((doze2.after (.addBody 3)).after (.addShape 3)).after (.step bumpStep)

example : doze1.pairSt 1 2 = .active ∧ doze1.frozen 1 2 = true ∧ word 1 2 doze1.trace = [.begin, .preSolve] ∧
    word 1 2 doze2.trace = [.begin, .preSolve] ∧ doze2.pairSt 1 2 = .active := by
  refine ⟨by decide +kernel, by decide +kernel, by decide +kernel, by decide +kernel, by decide +kernel⟩
example : word 1 2 doze3.trace = [.begin, .preSolve, .separate] ∧ doze3.pairSt 1 2 = .apart ∧
    word 1 2 doze4.trace = [.begin, .preSolve, .postSolve] ∧ doze4.pairSt 1 2 = .active := by
  refine ⟨by decide +kernel, by decide +kernel, by decide +kernel, by decide +kernel⟩

/-- Removing a shape of a touching pair. -/
example : word 1 2 (demo1.after (.removeShape 2 fun _ => [])).trace = [.begin, .preSolve, .postSolve, .separate] ∧
    (demo1.after (.removeShape 2 fun _ => [])).pairSt 1 2 = .apart := by
  refine ⟨by decide +kernel, by decide +kernel⟩

end CP
