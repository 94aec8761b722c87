import Verif.Spec.Encounter
import Verif.Spec.Energy

/-! # Specification: balls on a billiard table -/

namespace CP
namespace Sim

/-- In a step with the arguments `i` nothing pulls body `b`: no gravity, no damping, no forces. -/
structure Weightless (s : Sim ℝ) (i : SimIn ℝ) (b : Nat) : Prop where
  gravity : i.gravity = ⟨0, 0⟩
  damping : i.damping = 1
  forces : (s.mo.bodies b).f = ⟨0, 0⟩ ∧ (s.mo.bodies b).t = 0

/-- A body of finite mass and moment. -/
structure Ball (s : Sim ℝ) (b : Nat) : Prop where
  mass : 0 < (s.mo.bodies b).m_inv ∧ (s.mo.bodies b).m * (s.mo.bodies b).m_inv = 1
  moment : 0 < (s.mo.bodies b).i_inv ∧ (s.mo.bodies b).i * (s.mo.bodies b).i_inv = 1

/-- The momentum of the bodies `a` and `b` together. -/
noncomputable def momentum (s : Sim ℝ) (a b : Nat) : Vec ℝ :=
  ((s.velocity a).mult (s.mo.bodies a).m).add ((s.velocity b).mult (s.mo.bodies b).m)

/-- The angular momentum of body `b` about the origin, where it is at `p` with the velocity `v` and the spin `w`. -/
noncomputable def turning (s : Sim ℝ) (b : Nat) (p v : Vec ℝ) (w : ℝ) : ℝ := (s.mo.bodies b).m * p.cross v + (s.mo.bodies b).i * w

end Sim
end CP
