import Verif.Spec.Push
import Verif.Spec.Solver

/-! # Specification: kinetic energy -/

namespace CP
open Finset

/-- The sum of `KineticEnergy()` over the bodies `S`. (`KineticEnergy` is twice the physical energy.) -/
noncomputable def energy (S : Finset Nat) (h : Bodies ℝ) : ℝ := ∑ k ∈ S, (h k).kineticEnergy

/-- A body that is not driven from outside: its mass is finite or it does not move, its moment is finite or it does not turn. (A kinematic
body that moves can push others with any energy.) -/
structure Body.Undriven (b : Body ℝ) : Prop where
  mass : (0 < b.m_inv ∧ b.m * b.m_inv = 1) ∨ (b.m_inv = 0 ∧ b.v = ⟨0, 0⟩)
  moment : (0 < b.i_inv ∧ b.i * b.i_inv = 1) ∨ (b.i_inv = 0 ∧ b.w = 0)

/-- The step in which bodies fall freely: no contacts, no joints. -/
def Tick.free (t : Tick ℝ) : Tick ℝ := { t with arbs := [], joints := [] }

/-- Two different bodies of `S`, at least one of which can be moved. -/
structure Joins (S : Finset Nat) (h : Bodies ℝ) (a b : Nat) : Prop where
  memA : a ∈ S
  memB : b ∈ S
  ne : a ≠ b
  movable : 0 < (h a).m_inv + (h b).m_inv

/-- An arbiter between bodies of `S` without friction and bounce, the surfaces of which do not move. -/
structure Arb.Smooth (S : Finset Nat) (h : Bodies ℝ) (arb : Arb ℝ) : Prop where
  joins : Joins S h arb.a arb.b
  unit : arb.n.dot arb.n = 1
  inelastic : arb.e = 0
  frictionless : arb.u = 0
  surface : arb.surface_vr.dot arb.n = 0

/-- Contacts without stored impulses (as of bodies that did not touch in the last step). -/
def Arb.Fresh (arb : Arb ℝ) : Prop := ∀ c ∈ arb.contacts, c.jnAcc = 0 ∧ c.jtAcc = 0

/-- Joints that only ever hinder motion: no springs, no groove joints (`C59_groove_violated`), no motors that turn; gears with a ratio. -/
def Joint.Hinders : Joint ℝ → Prop
  | .groove _ | .spring _ | .rotarySpring _ => False
  | .motor j => j.rate = 0
  | .gear j => j.ratio * j.ratio_inv = 1
  | _ => True

/-- Joints that act on angles only. -/
def Joint.Angular : Joint ℝ → Prop
  | .gear _ | .ratchet _ | .rotaryLimit _ | .motor _ | .rotarySpring _ => True
  | _ => False

/-- A joint of that kind between bodies of `S`, that has no error to correct (or `ErrorBias`, `MaxBias` do not let it) and no stored impulse. -/
structure Joint.Still (S : Finset Nat) (h : Bodies ℝ) (dt : ℝ) (j : Joint ℝ) : Prop where
  joins : Joins S h j.con.a j.con.b
  turns : j.Angular → 0 < (h j.con.a).i_inv + (h j.con.b).i_inv
  hinders : j.Hinders
  noError : (j.preStep h dt).2.biasSize = 0
  impulse : j.getImpulse = 0
  maxForce : 0 ≤ j.con.maxForce

/-- The joint is a pivot. -/
def Joint.isPivot : Joint ℝ → Prop
  | .pivot _ => True
  | _ => False

/-- During the step no pivot joint reaches its `MaxForce` (up to the error of `Normalize`). -/
def Motion.PivotsHold (m : Motion ℝ) (t : Tick ℝ) : Prop :=
  ∀ pre post k, Solver.stepProgram t.arbs t.joints t.dyn t.iterations t.dt m.currDt t.slop t.collisionBias t.damping t.gravity =
      pre ++ .jointApply k t.dt :: post → (m.joints k).isPivot →
    let s := Solver.run { bodies := m.seen t, joints := m.joints, arbs := t.contact } (pre ++ [.jointApply k t.dt])
    (s.joints k).getImpulse + 1 / 10 ^ 15 ≤ (m.joints k).con.maxForce * t.dt

/-- A step in which contacts and joints only hinder: the bodies of `S` are not driven from outside, contacts have no friction, bounce or
stored impulses, joints have no error to correct and no stored impulses, pivots do not reach their `MaxForce`. Every body, arbiter and joint
is listed once. -/
structure Quiet (S : Finset Nat) (m : Motion ℝ) (t : Tick ℝ) : Prop where
  pos : 0 < t.dt
  movers : t.movers.Nodup
  dyn : t.dyn.Nodup
  arbsOnce : t.arbs.Nodup
  jointsOnce : t.joints.Nodup
  undriven : ∀ k ∈ S, (m.bodies k).Undriven
  finite : ∀ k ∈ S, k ∈ t.dyn → 0 < (m.bodies k).m_inv
  smooth : ∀ k ∈ t.arbs, (t.contact k).Smooth S (m.seen t) ∧ (t.contact k).Fresh
  still : ∀ k ∈ t.joints, (m.joints k).Still S (m.seen t) t.dt
  hold : m.PivotsHold t

end CP
