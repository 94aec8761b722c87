import Verif.Spec.Energy
import Verif.Proofs.Push3

/-! # The work of impulses -/

namespace CP
open GoFloat Finset

theorem kineticEnergy_eq (b : Body ℝ) : b.kineticEnergy = b.v.dot b.v * b.m + b.w * b.w * b.i := by
  simp only [Body.kineticEnergy]
  split <;> split <;> simp_all

/-- What a kick does to the kinetic energy. -/
noncomputable def Kick.work (κ : Kick) (h : Bodies ℝ) : ℝ :=
  2 * (κ.j.dot ((h κ.b).v.sub (h κ.a).v) + κ.tb * (h κ.b).w - κ.ta * (h κ.a).w) +
    κ.j.dot κ.j * ((h κ.a).m_inv + (h κ.b).m_inv) + κ.ta ^ 2 * (h κ.a).i_inv + κ.tb ^ 2 * (h κ.b).i_inv

theorem Body.Undriven.kicked {x y : Body ℝ} (u : x.Undriven) (f : Frozen x y) (jx jy t : ℝ) (hx : y.v.x = x.v.x + jx * x.m_inv) (hy : y.v.y = x.v.y + jy * x.m_inv)
    (hw : y.w = x.w + t * x.i_inv) : y.Undriven ∧
    y.kineticEnergy = x.kineticEnergy + (2 * (jx * x.v.x + jy * x.v.y + t * x.w) + (jx ^ 2 + jy ^ 2) * x.m_inv + t ^ 2 * x.i_inv) := by
  refine ⟨⟨?_, ?_⟩, ?_⟩
  · rw [f.m, f.m_inv]
    refine u.mass.imp id fun ⟨h1, h2⟩ => ⟨h1, ?_⟩
    rw [h1, h2] at hx hy
    ext
    · rw [hx]; simp
    · rw [hy]; simp
  · rw [f.i, f.i_inv]
    refine u.moment.imp id fun ⟨h1, h2⟩ => ⟨h1, ?_⟩
    rw [hw, h1, h2]; simp
  · rw [kineticEnergy_eq, kineticEnergy_eq, f.m, f.i]
    simp only [Vec.dot]
    rw [hx, hy, hw]
    have e1 : ((x.v.x + jx * x.m_inv) * (x.v.x + jx * x.m_inv) + (x.v.y + jy * x.m_inv) * (x.v.y + jy * x.m_inv)) * x.m =
        (x.v.x * x.v.x + x.v.y * x.v.y) * x.m + (2 * (jx * x.v.x + jy * x.v.y) + (jx ^ 2 + jy ^ 2) * x.m_inv) := by
      rcases u.mass with ⟨-, h⟩ | ⟨h1, h2⟩
      · linear_combination (2 * (jx * x.v.x + jy * x.v.y) + (jx ^ 2 + jy ^ 2) * x.m_inv) * h
      · rw [h1, h2]; simp
    have e2 : (x.w + t * x.i_inv) * (x.w + t * x.i_inv) * x.i = x.w * x.w * x.i + (2 * t * x.w + t ^ 2 * x.i_inv) := by
      rcases u.moment with ⟨-, h⟩ | ⟨h1, h2⟩
      · linear_combination (2 * t * x.w + t ^ 2 * x.i_inv) * h
      · rw [h1, h2]; simp
    linear_combination e1 + e2

/-- The bodies `S` are not driven from outside. -/
def AllUndriven (S : Finset Nat) (h : Bodies ℝ) : Prop := ∀ k ∈ S, (h k).Undriven

/-- The work of a kick between two bodies of `S`. -/
theorem Kick.Does.energy {κ : Kick} {h h' : Bodies ℝ} (d : κ.Does h h') (S : Finset Nat) (ha : κ.a ∈ S) (hb : κ.b ∈ S) (hab : κ.a ≠ κ.b)
    (hu : AllUndriven S h) : AllUndriven S h' ∧ CP.energy S h' = CP.energy S h + κ.work h := by
  have key : ∀ k ∈ S, (h' k).Undriven ∧ (h' k).kineticEnergy = (h k).kineticEnergy +
      ((if k = κ.b then 2 * (κ.j.x * (h κ.b).v.x + κ.j.y * (h κ.b).v.y + κ.tb * (h κ.b).w) + (κ.j.x ^ 2 + κ.j.y ^ 2) * (h κ.b).m_inv + κ.tb ^ 2 * (h κ.b).i_inv else 0) +
       (if k = κ.a then -(2 * (κ.j.x * (h κ.a).v.x + κ.j.y * (h κ.a).v.y + κ.ta * (h κ.a).w)) + (κ.j.x ^ 2 + κ.j.y ^ 2) * (h κ.a).m_inv + κ.ta ^ 2 * (h κ.a).i_inv else 0)) := by
    intro k hk
    obtain ⟨u, e⟩ := (hu k hk).kicked (d.frozen k) _ _ _ (d.vx k) (d.vy k) (d.w k)
    refine ⟨u, e.trans ?_⟩
    congr 1
    by_cases h1 : k = κ.b
    · have h2 : k ≠ κ.a := fun e => hab (e.symm.trans h1)
      rw [if_pos h1, if_neg h2]
      simp only [pairv, if_pos h1, if_neg h2]
      rw [h1]; ring
    · by_cases h2 : k = κ.a
      · rw [if_neg h1, if_pos h2]
        simp only [pairv, if_neg h1, if_pos h2]
        rw [h2]; ring
      · rw [if_neg h1, if_neg h2]
        simp only [pairv, if_neg h1, if_neg h2]
        ring
  refine ⟨fun k hk => (key k hk).1, ?_⟩
  unfold CP.energy
  rw [Finset.sum_congr rfl fun k hk => (key k hk).2, Finset.sum_add_distrib, Finset.sum_add_distrib, Finset.sum_ite_eq' S κ.b, Finset.sum_ite_eq' S κ.a,
    if_pos hb, if_pos ha]
  simp only [Kick.work, Vec.dot, Vec.sub]
  ring

/-- The work of an impulse `j` between two points: the impulse times the sum of their relative velocities before and after. -/
theorem applyImpulses_energy (S : Finset Nat) (h : Bodies ℝ) (a b : Nat) (r1 r2 j : Vec ℝ) (ha : a ∈ S) (hb : b ∈ S) (hab : a ≠ b) (hu : AllUndriven S h) :
    AllUndriven S (applyImpulses h a b r1 r2 j) ∧ energy S (applyImpulses h a b r1 r2 j) = energy S h + (2 * j.dot (relVel h a b r1 r2) +
      (j.dot j * ((h a).m_inv + (h b).m_inv) + (r1.cross j) ^ 2 * (h a).i_inv + (r2.cross j) ^ 2 * (h b).i_inv)) := by
  obtain ⟨u, e⟩ := (applyImpulses_does h a b r1 r2 j).energy S ha hb hab hu
  refine ⟨u, e.trans ?_⟩
  congr 1
  simp only [Kick.work, relVel, Vec.dot, Vec.sub, Vec.add, Vec.mult, Vec.perp, Vec.cross]
  ring

theorem applyBias_energy (S : Finset Nat) (h : Bodies ℝ) (a b : Nat) (r1 r2 j : Vec ℝ) (hu : AllUndriven S h) :
    AllUndriven S (applyBiasImpulses h a b r1 r2 j) ∧ energy S (applyBiasImpulses h a b r1 r2 j) = energy S h := by
  have d := applyBiasImpulses_does h a b r1 r2 j
  have key : ∀ k ∈ S, (applyBiasImpulses h a b r1 r2 j k).Undriven ∧ (applyBiasImpulses h a b r1 r2 j k).kineticEnergy = (h k).kineticEnergy := by
    intro k hk
    obtain ⟨u, e⟩ := (hu k hk).kicked (d.frozen k) 0 0 0 (by have := d.vx k; simpa [pairv] using this) (by have := d.vy k; simpa [pairv] using this)
      (by have := d.w k; simpa [pairv] using this)
    exact ⟨u, by rw [e]; ring⟩
  exact ⟨fun k hk => (key k hk).1, Finset.sum_congr rfl fun k hk => (key k hk).2⟩

/-- A fraction `θ` of the impulse that would stop a motion adds no energy. -/
theorem work_le {v k θ : ℝ} (hk : 0 ≤ k) (h0 : 0 ≤ θ) (h1 : θ ≤ 1) : 2 * (θ * (-v * (1 / k)) * v) + (θ * (-v * (1 / k))) ^ 2 * k ≤ 0 := by
  rcases hk.eq_or_lt with rfl | hk
  · simp
  · have : 2 * (θ * (-v * (1 / k)) * v) + (θ * (-v * (1 / k))) ^ 2 * k = (θ ^ 2 - 2 * θ) * (v ^ 2 / k) := by field_simp; ring
    rw [this]
    exact mul_nonpos_of_nonpos_of_nonneg (by nlinarith) (by positivity)

/-- The same with twice the quadratic part. -/
theorem work_le' {v k θ : ℝ} (hk : 0 ≤ k) (h0 : 0 ≤ θ) (h1 : θ ≤ 1) : θ * (-v * (1 / k)) * v + (θ * (-v * (1 / k))) ^ 2 * k ≤ 0 := by
  rcases hk.eq_or_lt with rfl | hk
  · simp
  · have : θ * (-v * (1 / k)) * v + (θ * (-v * (1 / k))) ^ 2 * k = (θ ^ 2 - θ) * (v ^ 2 / k) := by field_simp; ring
    rw [this]
    exact mul_nonpos_of_nonpos_of_nonneg (by nlinarith) (by positivity)

end CP
