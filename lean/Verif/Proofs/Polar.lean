import Verif.Proofs.Steiner2
import Mathlib.Analysis.SpecialFunctions.PolarCoord
import Mathlib.Analysis.SpecialFunctions.Integrals.Basic

/-! # Integrals over rings (for C47) -/

namespace CP.Int
open MeasureTheory Set

/-- The ring about the origin. -/
def ring0 (r R : ℝ) : Set (ℝ × ℝ) := {p | r ≤ √(p.1 ^ 2 + p.2 ^ 2) ∧ √(p.1 ^ 2 + p.2 ^ 2) ≤ R}

theorem ring0_closed (r R : ℝ) : IsClosed (ring0 r R) := by
  have c : Continuous fun p : ℝ × ℝ => √(p.1 ^ 2 + p.2 ^ 2) := by fun_prop
  exact (isClosed_le continuous_const c).inter (isClosed_le c continuous_const)

theorem ring0_compact {r R : ℝ} (hR : 0 ≤ R) : IsCompact (ring0 r R) := by
  refine (disc_compact hR).of_isClosed_subset (ring0_closed r R) ?_
  intro p hp
  have := hp.2
  rw [Real.sqrt_le_left hR] at this
  exact this

theorem ring0_integral {r R : ℝ} (hr : 0 ≤ r) (k : ℕ) :
    ∫ p in ring0 r R, (√(p.1 ^ 2 + p.2 ^ 2)) ^ k = 2 * Real.pi * ∫ x in Ioc r R, x ^ (k + 1) := by
  rw [← integral_indicator (ring0_closed r R).measurableSet, ← integral_comp_polarCoord_symm]
  have key : ∀ p ∈ polarCoord.target, p.1 • (ring0 r R).indicator (fun p : ℝ × ℝ => (√(p.1 ^ 2 + p.2 ^ 2)) ^ k) (polarCoord.symm p) =
      (Icc r R).indicator (fun x : ℝ => x ^ (k + 1)) p.1 * 1 := by
    rintro ⟨ρ, θ⟩ hp
    rw [polarCoord_target] at hp
    have hρ : 0 < ρ := hp.1
    have e : √((polarCoord.symm (ρ, θ)).1 ^ 2 + (polarCoord.symm (ρ, θ)).2 ^ 2) = ρ := by
      rw [polarCoord_symm_apply]
      simp only
      have : (ρ * Real.cos θ) ^ 2 + (ρ * Real.sin θ) ^ 2 = ρ ^ 2 := by
        have := Real.sin_sq_add_cos_sq θ
        linear_combination ρ ^ 2 * this
      rw [this, Real.sqrt_sq hρ.le]
    by_cases h : ρ ∈ Icc r R
    · rw [indicator_of_mem (s := Icc r R) h, indicator_of_mem]
      · rw [e]; simp only [smul_eq_mul]; ring
      · show r ≤ _ ∧ _ ≤ R
        rw [e]; exact h
    · rw [indicator_of_notMem (s := Icc r R) h, indicator_of_notMem]
      · simp
      · show ¬ (r ≤ _ ∧ _ ≤ R)
        rw [e]; exact h
  rw [setIntegral_congr_fun polarCoord.open_target.measurableSet key, polarCoord_target, Measure.volume_eq_prod,
    setIntegral_prod_mul (μ := volume) (ν := volume) (fun x => (Icc r R).indicator (fun x : ℝ => x ^ (k + 1)) x) (fun _ => (1 : ℝ))]
  rw [setIntegral_indicator measurableSet_Icc]
  have e1 : ∫ x in Ioi 0 ∩ Icc r R, x ^ (k + 1) = ∫ x in Ioc r R, x ^ (k + 1) := by
    rcases hr.eq_or_lt with rfl | h
    · congr 2
      ext x; constructor
      · rintro ⟨h1, h2⟩; exact ⟨h1, h2.2⟩
      · rintro ⟨h1, h2⟩; exact ⟨h1, h1.le, h2⟩
    · rw [← integral_Icc_eq_integral_Ioc]
      congr 2
      ext x; constructor
      · rintro ⟨h1, h2⟩; exact h2
      · rintro h2; exact ⟨lt_of_lt_of_le h h2.1, h2⟩
  rw [e1]
  have e2 : ∫ _ in Ioo (-Real.pi) Real.pi, (1 : ℝ) = 2 * Real.pi := by
    rw [setIntegral_const, Measure.real, Real.volume_Ioo, ENNReal.toReal_ofReal (by linarith [Real.pi_pos])]
    simp only [smul_eq_mul]; ring
  rw [e2]; ring

theorem ring0_one {r R : ℝ} (hr : 0 ≤ r) (h : r ≤ R) : ∫ _ in ring0 r R, (1 : ℝ) = Real.pi * (R ^ 2 - r ^ 2) := by
  have := ring0_integral (R := R) hr 0
  simp only [pow_zero] at this
  rw [this, ← intervalIntegral.integral_of_le h, integral_pow]
  push_cast; ring

theorem ring0_sq {r R : ℝ} (hr : 0 ≤ r) (h : r ≤ R) : ∫ p in ring0 r R, (p.1 ^ 2 + p.2 ^ 2) = Real.pi * (R ^ 4 - r ^ 4) / 2 := by
  have := ring0_integral (R := R) hr 2
  have e : ∀ p : ℝ × ℝ, √(p.1 ^ 2 + p.2 ^ 2) ^ 2 = p.1 ^ 2 + p.2 ^ 2 := fun p => Real.sq_sqrt (by positivity)
  simp only [e] at this
  rw [this, ← intervalIntegral.integral_of_le h, integral_pow]
  push_cast; ring

theorem ring0_odd (r R : ℝ) (g : ℝ × ℝ → ℝ) (hg : ∀ p, g (-p) = - g p) : ∫ p in ring0 r R, g p = 0 := by
  have h := (Measure.measurePreserving_neg (volume : Measure (ℝ × ℝ))).setIntegral_preimage_emb (MeasurableEquiv.neg (ℝ × ℝ)).measurableEmbedding g (ring0 r R)
  have e : (Neg.neg : ℝ × ℝ → ℝ × ℝ) ⁻¹' ring0 r R = ring0 r R := by
    ext p; simp [ring0]
  rw [e] at h
  simp only [hg, integral_neg] at h
  linarith

/-- The ring about `c`. -/
def ringAt (c : ℝ × ℝ) (r R : ℝ) : Set (ℝ × ℝ) := {p | r ≤ √((p.1 - c.1) ^ 2 + (p.2 - c.2) ^ 2) ∧ √((p.1 - c.1) ^ 2 + (p.2 - c.2) ^ 2) ≤ R}

theorem ringAt_integral (c : ℝ × ℝ) (r R : ℝ) (g : ℝ × ℝ → ℝ) : ∫ p in ringAt c r R, g p = ∫ p in ring0 r R, g (p + c) := by
  have h := (measurePreserving_add_right (volume : Measure (ℝ × ℝ)) c).setIntegral_preimage_emb (measurableEmbedding_addRight c) g (ringAt c r R)
  rw [← h]
  congr 2
  ext p
  simp [ringAt, ring0]

theorem ringAt_one (c : ℝ × ℝ) {r R : ℝ} (hr : 0 ≤ r) (h : r ≤ R) : ∫ _ in ringAt c r R, (1 : ℝ) = Real.pi * (R ^ 2 - r ^ 2) := by
  rw [ringAt_integral, ring0_one hr h]

theorem ringAt_sq (c : ℝ × ℝ) {r R : ℝ} (hr : 0 ≤ r) (h : r ≤ R) :
    ∫ p in ringAt c r R, (p.1 ^ 2 + p.2 ^ 2) = Real.pi * (R ^ 4 - r ^ 4) / 2 + Real.pi * (R ^ 2 - r ^ 2) * (c.1 ^ 2 + c.2 ^ 2) := by
  have hK := ring0_compact (r := r) (hr.trans h)
  have I : ∀ g : ℝ × ℝ → ℝ, Continuous g → IntegrableOn g (ring0 r R) := fun g hg => hg.continuousOn.integrableOn_compact hK
  rw [ringAt_integral]
  have e : ∀ p : ℝ × ℝ, (p + c).1 ^ 2 + (p + c).2 ^ 2 = ((p.1 ^ 2 + p.2 ^ 2) + (2 * c.1 * p.1 + 2 * c.2 * p.2)) + (c.1 ^ 2 + c.2 ^ 2) * 1 := by
    intro p; simp only [Prod.fst_add, Prod.snd_add]; ring
  simp only [e]
  rw [integral_add (f := fun p : ℝ × ℝ => (p.1 ^ 2 + p.2 ^ 2) + (2 * c.1 * p.1 + 2 * c.2 * p.2)) (g := fun _ => (c.1 ^ 2 + c.2 ^ 2) * 1)
      (I _ (by fun_prop)) (I _ (by fun_prop)),
    integral_add (f := fun p : ℝ × ℝ => p.1 ^ 2 + p.2 ^ 2) (g := fun p => 2 * c.1 * p.1 + 2 * c.2 * p.2) (I _ (by fun_prop)) (I _ (by fun_prop)),
    ring0_sq hr h, ring0_odd r R (fun p => 2 * c.1 * p.1 + 2 * c.2 * p.2) (fun p => by simp only [Prod.fst_neg, Prod.snd_neg]; ring),
    integral_const_mul, ring0_one hr h]
  ring

end CP.Int
