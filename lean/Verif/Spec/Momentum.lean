import Verif.Model.Solver
import Mathlib.Algebra.BigOperators.Ring.Finset

/-! # Specification: momentum of a set of bodies -/

namespace CP
open Finset

/-- Total linear momentum of the bodies `S`. -/
noncomputable def linearMomentum (S : Finset Nat) (h : Bodies ℝ) : Vec ℝ :=
  ⟨∑ k ∈ S, (h k).m * (h k).v.x, ∑ k ∈ S, (h k).m * (h k).v.y⟩

/-- Total linear momentum carried by the bias ("pseudo") velocities. -/
noncomputable def biasMomentum (S : Finset Nat) (h : Bodies ℝ) : Vec ℝ :=
  ⟨∑ k ∈ S, (h k).m * (h k).v_bias.x, ∑ k ∈ S, (h k).m * (h k).v_bias.y⟩

/-- Total angular momentum of the bodies `S` about the origin: orbital part plus spin. -/
noncomputable def angularMomentum (S : Finset Nat) (h : Bodies ℝ) : ℝ :=
  ∑ k ∈ S, ((h k).m * (h k).p.cross (h k).v + (h k).i * (h k).w)

/-- Finite masses and moments with consistent inverses. -/
def FiniteMass (b : Body ℝ) : Prop := b.m * b.m_inv = 1 ∧ b.i * b.i_inv = 1

/-- Static and kinematic bodies as `SetType` leaves them. -/
def Immovable (b : Body ℝ) : Prop := b.m_inv = 0 ∧ b.i_inv = 0

/-- The two bodies are both in `S` or both outside. -/
def Isolates (S : Finset Nat) (a b : Nat) : Prop := a ∈ S ↔ b ∈ S

/-- The joint an action works on. -/
def SolverOp.joint? : SolverOp ℝ → Option Nat
  | .jointPreStep k _ | .jointCached k _ | .jointApply k _ => some k
  | _ => none

/-- The arbiter an action works on. -/
def SolverOp.arb? : SolverOp ℝ → Option Nat
  | .arbPreStep k _ _ _ | .arbCached k _ | .arbApply k => some k
  | _ => none

/-- The body an action integrates. -/
def SolverOp.integrated? : SolverOp ℝ → Option Nat
  | .integrate k _ _ _ => some k
  | _ => none

/-- Every joint is prepared by its `PreStep` before its impulses are applied (the order of
/repo/space.go:719-770); `D` are the joints already prepared. -/
def Ordered (D : List Nat) : List (SolverOp ℝ) → Prop
  | [] => True
  | .jointPreStep k _ :: r => Ordered (k :: D) r
  | .jointCached k _ :: r => k ∈ D ∧ Ordered D r
  | .jointApply k _ :: r => k ∈ D ∧ Ordered D r
  | _ :: r => Ordered D r

/-- Joint geometry under which angular momentum is conserved: pivots whose anchors coincide, gears
with ratio 1, and every pin, slide, spring, motor, ratchet, rotary limit and rotary spring. -/
def ConservesSpin (h : Bodies ℝ) : Joint ℝ → Prop
  | .pivot j => (h j.a).localToWorld j.anchorA = (h j.b).localToWorld j.anchorB
  | .groove _ => False
  | .gear j => j.ratio_inv = 1
  | _ => True

/-- Contact geometry under which angular momentum is conserved: both shapes' contact points
coincide, or the contact is frictionless and pushes along the line between its two points. -/
def ContactConservesSpin (h : Bodies ℝ) (arb : Arb ℝ) (c : Contact ℝ) : Prop :=
  (h arb.b).p.add c.r2 = (h arb.a).p.add c.r1 ∨
  ((((h arb.b).p.add c.r2).sub ((h arb.a).p.add c.r1)).cross arb.n = 0 ∧ arb.u = 0 ∧ c.jtAcc = 0)

end CP
