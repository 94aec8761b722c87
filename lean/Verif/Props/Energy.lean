import Verif.Props.EnergyFriction
import Verif.Props.EnergyGroove

/-! # C59: contacts without friction and joints without errors add no kinetic energy -/

namespace CP
open GoFloat Finset

/-- **C59**, work: an impulse `j` that acts at two points of two bodies (and against each other) changes the sum of `KineticEnergy()` by `j`
times the sum of the points' relative velocities before and after. -/
theorem C59_work (S : Finset Nat) (h : Bodies ℝ) (a b : Nat) (r1 r2 j : Vec ℝ) (ha : a ∈ S) (hb : b ∈ S) (hab : a ≠ b) (hu : ∀ k ∈ S, (h k).Undriven) :
    energy S (applyImpulses h a b r1 r2 j) = energy S h + j.dot ((relVel h a b r1 r2).add (relVel (applyImpulses h a b r1 r2 j) a b r1 r2)) := by
  rw [(applyImpulses_energy S h a b r1 r2 j ha hb hab hu).2]
  have hba := hab.symm
  simp only [relVel, applyImpulses, Bodies.set, hab, hba, if_true, if_false, Vec.dot, Vec.sub, Vec.add, Vec.mult, Vec.perp, Vec.cross, Vec.neg]
  ring

/-- **C59**, one pass at one contact (of a prepared arbiter without bounce, whatever impulses it has stored and whatever has happened to the
velocities since it was prepared): it adds no energy, unless the normal impulse has shrunk so far that the stored friction is beyond the
limit of friction. (That case can add energy: `C59_friction_violated`.) -/
theorem C59_contact (S : Finset Nat) (h0 h : Bodies ℝ) (arb : Arb ℝ) (c : Contact ℝ) (dt slop bias x y z : ℝ) (hj : Joins S h0 arb.a arb.b)
    (hf : ∀ k, Frozen (h0 k) (h k)) (hu : ∀ k ∈ S, (h k).Undriven) (hn : arb.n.dot arb.n = 1) (he : arb.e = 0) (hs : arb.surface_vr = ⟨0, 0⟩)
    (hc : c ∈ (arb.preStep h0 dt slop bias).contacts) (hx : 0 ≤ x)
    (hfr : |y| ≤ arb.u * (arb.applyContact h { c with jnAcc := x, jtAcc := y, jBias := z }).2.jnAcc) :
    energy S (arb.applyContact h { c with jnAcc := x, jtAcc := y, jBias := z }).1 ≤ energy S h := by
  obtain ⟨d, -, rfl⟩ := List.mem_map.1 hc
  refine (contact_energy hj.memA hj.memB hj.ne hu hn ?_ ?_ hx ?_ ?_ (.inr ⟨?_, hfr⟩)).2
  · simp only [he, mul_zero]
  · simp [hs, Vec.dot]
  · simp only [kScalar_frozen hf]
  · simp only [kScalar_frozen hf]
  · simp [hs, Vec.dot]

/-- **C59**, every pass: in a step in which contacts and joints only hinder (`Quiet`), each further iteration leaves at most the kinetic
energy that there was before. -/
theorem C59_passes (S : Finset Nat) (m : Motion ℝ) (t : Tick ℝ) (q : Quiet S m t) (n k : Nat) (hnk : n ≤ k) (hk : k ≤ t.iterations) :
    energy S (m.tick { t with iterations := k }).bodies ≤ energy S (m.tick { t with iterations := n }).bodies :=
  passes_energy q hnk hk

/-- **C59**, the step: in such a step the bodies end up with at most the kinetic energy that they would have if they touched nothing and had
no joints. -/
theorem C59_step (S : Finset Nat) (m : Motion ℝ) (t : Tick ℝ) (q : Quiet S m t) : energy S (m.tick t).bodies ≤ energy S (m.tick t.free).bodies :=
  step_energy q

/-- **C59**, without gravity and forces: such a step leaves at most the kinetic energy that there was before it. -/
theorem C59_dissipates (S : Finset Nat) (m : Motion ℝ) (t : Tick ℝ) (q : Quiet S m t) (hg : t.gravity = ⟨0, 0⟩)
    (hf : ∀ k ∈ S, (m.bodies k).f = ⟨0, 0⟩ ∧ (m.bodies k).t = 0) (hd0 : 0 ≤ t.damping) (hd1 : t.damping ≤ 1) :
    energy S (m.tick t).bodies ≤ energy S m.bodies :=
  (step_energy q).trans (free_energy q.pos q.movers q.dyn q.undriven hg hf hd0 hd1)

end CP
