import Mathlib.MeasureTheory.Function.Jacobian
import Mathlib.MeasureTheory.Integral.Prod
import Mathlib.MeasureTheory.Integral.IntervalIntegral.FundThmCalculus
import Mathlib.MeasureTheory.Measure.Haar.NormedSpace
import Mathlib.MeasureTheory.Measure.Lebesgue.EqHaar
import Mathlib.Analysis.Calculus.Deriv.Pow
import Mathlib.Analysis.Calculus.Deriv.Mul
import Mathlib.Analysis.Calculus.FDeriv.Mul
import Mathlib.Analysis.Calculus.FDeriv.Prod
import Mathlib.Analysis.Convex.Combination
import Mathlib.Analysis.Convex.Topology
import Mathlib.Analysis.Convex.Join
import Mathlib.LinearAlgebra.Matrix.ToLin
import Mathlib.LinearAlgebra.Determinant
import Mathlib.Tactic.LinearCombination

/-! # Integrals over triangles and convex polygons (for C47) -/

namespace CP.Int
open MeasureTheory Set

instance : (volume : Measure (ℝ × ℝ)).IsAddHaarMeasure := Measure.prod.instIsAddHaarMeasure _ _

/-- The unit square without one side. -/
def sq : Set (ℝ × ℝ) := Ioc 0 1 ×ˢ Icc 0 1

theorem sq_sub : sq ⊆ Icc (0 : ℝ) 1 ×ˢ Icc (0 : ℝ) 1 := prod_mono Ioc_subset_Icc_self le_rfl

theorem sq_measurable : MeasurableSet sq := measurableSet_Ioc.prod measurableSet_Icc

theorem integrable_sq {g : ℝ × ℝ → ℝ} (hg : Continuous g) : IntegrableOn g sq :=
  (hg.continuousOn.integrableOn_compact (isCompact_Icc.prod isCompact_Icc)).mono_set sq_sub

theorem integral_poly1 (c0 c1 c2 : ℝ) : ∫ t in Icc (0 : ℝ) 1, (c0 + c1 * t + c2 * t ^ 2) = c0 + c1 / 2 + c2 / 3 := by
  rw [integral_Icc_eq_integral_Ioc, ← intervalIntegral.integral_of_le zero_le_one,
    intervalIntegral.integral_eq_sub_of_hasDerivAt (f := fun t => c0 * t + c1 * t ^ 2 / 2 + c2 * t ^ 3 / 3)]
  · ring
  · intro t _
    have := (((hasDerivAt_id t).const_mul c0).add (((hasDerivAt_pow 2 t).const_mul c1).div_const 2)).add
      (((hasDerivAt_pow 3 t).const_mul c2).div_const 3)
    refine this.congr_deriv ?_
    norm_num; ring
  · exact Continuous.intervalIntegrable (by fun_prop) _ _

theorem integral_poly2 (c1 c2 c3 : ℝ) : ∫ s in Ioc (0 : ℝ) 1, (c1 * s + c2 * s ^ 2 + c3 * s ^ 3) = c1 / 2 + c2 / 3 + c3 / 4 := by
  rw [← intervalIntegral.integral_of_le zero_le_one,
    intervalIntegral.integral_eq_sub_of_hasDerivAt (f := fun t => c1 * t ^ 2 / 2 + c2 * t ^ 3 / 3 + c3 * t ^ 4 / 4)]
  · ring
  · intro t _
    have := ((((hasDerivAt_pow 2 t).const_mul c1).div_const 2).add (((hasDerivAt_pow 3 t).const_mul c2).div_const 3)).add
      (((hasDerivAt_pow 4 t).const_mul c3).div_const 4)
    refine this.congr_deriv ?_
    norm_num; ring
  · exact Continuous.intervalIntegrable (by fun_prop) _ _

/-- Monomials over the square. -/
theorem integral_sq (k1 k2 k3 k4 k5 k6 : ℝ) :
    ∫ p in sq, (k1 * p.1 + k2 * p.1 ^ 2 + k3 * p.1 ^ 2 * p.2 + k4 * p.1 ^ 3 + k5 * p.1 ^ 3 * p.2 + k6 * p.1 ^ 3 * p.2 ^ 2) =
      k1 / 2 + k2 / 3 + k3 / 6 + k4 / 4 + k5 / 8 + k6 / 12 := by
  have hc : Continuous fun p : ℝ × ℝ => (k1 * p.1 + k2 * p.1 ^ 2 + k3 * p.1 ^ 2 * p.2 + k4 * p.1 ^ 3 + k5 * p.1 ^ 3 * p.2 + k6 * p.1 ^ 3 * p.2 ^ 2) := by
    fun_prop
  have h := setIntegral_prod (μ := volume) (ν := volume) _ (integrable_sq hc)
  rw [show (volume : Measure (ℝ × ℝ)) = volume.prod volume from rfl, sq, h]
  have inner : ∀ s : ℝ, ∫ t in Icc (0 : ℝ) 1, (k1 * s + k2 * s ^ 2 + k3 * s ^ 2 * t + k4 * s ^ 3 + k5 * s ^ 3 * t + k6 * s ^ 3 * t ^ 2) =
      k1 * s + (k2 + k3 / 2) * s ^ 2 + (k4 + k5 / 2 + k6 / 3) * s ^ 3 := by
    intro s
    have := integral_poly1 (k1 * s + k2 * s ^ 2 + k4 * s ^ 3) (k3 * s ^ 2 + k5 * s ^ 3) (k6 * s ^ 3)
    rw [show (∫ t in Icc (0 : ℝ) 1, (k1 * s + k2 * s ^ 2 + k3 * s ^ 2 * t + k4 * s ^ 3 + k5 * s ^ 3 * t + k6 * s ^ 3 * t ^ 2)) =
      ∫ t in Icc (0 : ℝ) 1, ((k1 * s + k2 * s ^ 2 + k4 * s ^ 3) + (k3 * s ^ 2 + k5 * s ^ 3) * t + k6 * s ^ 3 * t ^ 2) from by
        congr 1; funext t; ring, this]
    ring
  simp only [inner]
  rw [integral_poly2]
  ring

/-- Twice the signed area of a triangle. -/
def dbl (a b c : ℝ × ℝ) : ℝ := (b.1 - a.1) * (c.2 - a.2) - (b.2 - a.2) * (c.1 - a.1)

/-- The map of the square onto the triangle. -/
def fan (a b c : ℝ × ℝ) (p : ℝ × ℝ) : ℝ × ℝ :=
  (a.1 + p.1 * ((b.1 - a.1) + p.2 * (c.1 - b.1)), a.2 + p.1 * ((b.2 - a.2) + p.2 * (c.2 - b.2)))

/-- Its derivative. -/
noncomputable def fan' (a b c : ℝ × ℝ) (p : ℝ × ℝ) : ℝ × ℝ →L[ℝ] ℝ × ℝ :=
  LinearMap.toContinuousLinearMap (Matrix.toLin (Module.Basis.finTwoProd ℝ) (Module.Basis.finTwoProd ℝ)
    !![(b.1 - a.1) + p.2 * (c.1 - b.1), p.1 * (c.1 - b.1); (b.2 - a.2) + p.2 * (c.2 - b.2), p.1 * (c.2 - b.2)])

theorem fan'_det (a b c p : ℝ × ℝ) : (fan' a b c p).det = p.1 * dbl a b c := by
  rw [fan', ContinuousLinearMap.det, LinearMap.coe_toContinuousLinearMap, LinearMap.det_toLin, Matrix.det_fin_two_of, dbl]
  ring

theorem fan_deriv (a b c p : ℝ × ℝ) : HasFDerivAt (fan a b c) (fan' a b c p) p := by
  rw [fan', Matrix.toLin_finTwoProd_toContinuousLinearMap]
  have h1 : HasFDerivAt (fun q : ℝ × ℝ => q.1) (ContinuousLinearMap.fst ℝ ℝ ℝ) p := hasFDerivAt_fst
  have h2 : HasFDerivAt (fun q : ℝ × ℝ => q.2) (ContinuousLinearMap.snd ℝ ℝ ℝ) p := hasFDerivAt_snd
  have e1 := (h1.mul ((h2.mul_const (c.1 - b.1)).const_add (b.1 - a.1))).const_add a.1
  have e2 := (h1.mul ((h2.mul_const (c.2 - b.2)).const_add (b.2 - a.2))).const_add a.2
  have h := HasFDerivAt.prodMk e1 e2
  refine HasFDerivAt.congr_fderiv (f := fan a b c) h ?_
  ext <;> simp

theorem fan_inj {a b c : ℝ × ℝ} (h : dbl a b c ≠ 0) : InjOn (fan a b c) sq := by
  rintro ⟨s, t⟩ ⟨hs, -⟩ ⟨s', t'⟩ ⟨-, -⟩ e
  simp only [fan, Prod.mk.injEq] at e
  obtain ⟨e1, e2⟩ := e
  simp only [mem_Ioc] at hs
  simp only [dbl] at h
  have k1 : (s - s') * ((b.1 - a.1) * (c.2 - a.2) - (b.2 - a.2) * (c.1 - a.1)) = 0 := by
    linear_combination (c.2 - b.2) * e1 - (c.1 - b.1) * e2
  have k2 : (s * t - s' * t') * ((b.1 - a.1) * (c.2 - a.2) - (b.2 - a.2) * (c.1 - a.1)) = 0 := by
    linear_combination (b.1 - a.1) * e2 - (b.2 - a.2) * e1
  have q1 : s = s' := by linarith [(mul_eq_zero.1 k1).resolve_right h]
  subst q1
  have q2 := (mul_eq_zero.1 k2).resolve_right h
  have : s * (t - t') = 0 := by linarith
  have := (mul_eq_zero.1 this).resolve_left hs.1.ne'
  simp; linarith

theorem tri_mem {a b c x : ℝ × ℝ} : x ∈ convexHull ℝ ({a, b, c} : Set (ℝ × ℝ)) ↔
    ∃ u v w : ℝ, 0 ≤ u ∧ 0 ≤ v ∧ 0 ≤ w ∧ u + v + w = 1 ∧ x = (u * a.1 + v * b.1 + w * c.1, u * a.2 + v * b.2 + w * c.2) := by
  rw [convexHull_insert (by simp), convexHull_pair, mem_convexJoin]
  constructor
  · rintro ⟨y, hy, z, ⟨p, q, hp, hq, hpq, rfl⟩, ⟨m, n, hm, hn, hmn, rfl⟩⟩
    obtain rfl := hy
    refine ⟨m, n * p, n * q, hm, mul_nonneg hn hp, mul_nonneg hn hq, ?_, ?_⟩
    · rw [add_assoc, ← mul_add, hpq, mul_one, hmn]
    · ext <;> simp <;> ring
  · rintro ⟨u, v, w, hu, hv, hw, e, rfl⟩
    by_cases hz : v + w = 0
    · have v0 : v = 0 := by linarith
      have w0 : w = 0 := by linarith
      have u1 : u = 1 := by linarith
      refine ⟨a, rfl, b, left_mem_segment ℝ b c, ?_⟩
      subst v0 w0 u1
      convert left_mem_segment ℝ a b using 1
      ext <;> simp
    · have hp : 0 < v + w := lt_of_le_of_ne (by linarith) (Ne.symm hz)
      refine ⟨a, rfl, ((v / (v + w)) * b.1 + (w / (v + w)) * c.1, (v / (v + w)) * b.2 + (w / (v + w)) * c.2), ?_, ?_⟩
      · refine ⟨v / (v + w), w / (v + w), by positivity, by positivity, by field_simp, ?_⟩
        ext <;> simp
      · refine ⟨u, v + w, hu, hp.le, by linarith, ?_⟩
        ext <;> simp <;> field_simp <;> ring

theorem fan_image (a b c : ℝ × ℝ) (h : dbl a b c ≠ 0) : fan a b c '' sq = convexHull ℝ ({a, b, c} : Set (ℝ × ℝ)) \ {a} := by
  ext x
  constructor
  · rintro ⟨⟨s, t⟩, ⟨⟨hs0, hs1⟩, ht0, ht1⟩, rfl⟩
    dsimp only at hs0 hs1 ht0 ht1
    refine ⟨tri_mem.2 ⟨1 - s, s * (1 - t), s * t, by linarith, mul_nonneg hs0.le (by linarith), mul_nonneg hs0.le ht0, by ring, ?_⟩, ?_⟩
    · simp only [fan]; ext <;> simp <;> ring
    · intro e
      simp only [fan, mem_singleton_iff, Prod.ext_iff] at e
      obtain ⟨e1, e2⟩ := e
      apply h
      have k1 : (b.1 - a.1) + t * (c.1 - b.1) = 0 := by
        have : s * ((b.1 - a.1) + t * (c.1 - b.1)) = 0 := by linarith
        exact (mul_eq_zero.1 this).resolve_left hs0.ne'
      have k2 : (b.2 - a.2) + t * (c.2 - b.2) = 0 := by
        have : s * ((b.2 - a.2) + t * (c.2 - b.2)) = 0 := by linarith
        exact (mul_eq_zero.1 this).resolve_left hs0.ne'
      simp only [dbl]
      linear_combination (c.2 - b.2) * k1 - (c.1 - b.1) * k2
  · rintro ⟨hx, hne⟩
    obtain ⟨u, v, w, hu, hv, hw, e, rfl⟩ := tri_mem.1 hx
    have hp : 0 < v + w := by
      rcases lt_or_eq_of_le (add_nonneg hv hw) with q | q
      · exact q
      · exfalso; apply hne
        have v0 : v = 0 := by linarith
        have w0 : w = 0 := by linarith
        have u1 : u = 1 := by linarith
        subst v0 w0 u1; simp
    refine ⟨(v + w, w / (v + w)), ⟨⟨hp, by dsimp only; linarith⟩, by dsimp only; positivity, by dsimp only; rw [div_le_one hp]; linarith⟩, ?_⟩
    have : u = 1 - v - w := by linarith
    subst this
    simp only [fan]
    ext <;> simp <;> field_simp <;> ring

theorem tri_integral (a b c : ℝ × ℝ) (h : 0 < dbl a b c) (g : ℝ × ℝ → ℝ) :
    ∫ p in convexHull ℝ ({a, b, c} : Set (ℝ × ℝ)), g p = dbl a b c * ∫ p in sq, p.1 * g (fan a b c p) := by
  have e1 : ∫ p in convexHull ℝ ({a, b, c} : Set (ℝ × ℝ)), g p = ∫ p in fan a b c '' sq, g p := by
    rw [fan_image a b c h.ne']
    refine setIntegral_congr_set ?_
    exact (diff_null_ae_eq_self (by simp)).symm
  rw [e1, integral_image_eq_integral_abs_det_fderiv_smul volume sq_measurable (fun p _ => (fan_deriv a b c p).hasFDerivWithinAt)
    (fan_inj h.ne'), ← integral_const_mul]
  refine setIntegral_congr_fun sq_measurable fun p hp => ?_
  have h0 : 0 < p.1 := hp.1.1
  simp only [fan'_det, smul_eq_mul]
  rw [abs_of_pos (mul_pos h0 h)]
  ring

theorem tri_one (a b c : ℝ × ℝ) (h : 0 < dbl a b c) : ∫ _ in convexHull ℝ ({a, b, c} : Set (ℝ × ℝ)), (1 : ℝ) = dbl a b c / 2 := by
  rw [tri_integral a b c h]
  have := integral_sq 1 0 0 0 0 0
  simp only [one_mul, zero_mul, add_zero] at this
  simp only [mul_one, this]; ring

theorem tri_fst (a b c : ℝ × ℝ) (h : 0 < dbl a b c) :
    ∫ p in convexHull ℝ ({a, b, c} : Set (ℝ × ℝ)), p.1 = dbl a b c / 6 * (a.1 + b.1 + c.1) := by
  rw [tri_integral a b c h]
  have := integral_sq a.1 (b.1 - a.1) (c.1 - b.1) 0 0 0
  rw [show (∫ p in sq, p.1 * (fan a b c p).1) = ∫ p in sq, (a.1 * p.1 + (b.1 - a.1) * p.1 ^ 2 + (c.1 - b.1) * p.1 ^ 2 * p.2 + 0 * p.1 ^ 3 +
    0 * p.1 ^ 3 * p.2 + 0 * p.1 ^ 3 * p.2 ^ 2) from by congr 1; funext p; simp only [fan]; ring, this]
  ring

theorem tri_snd (a b c : ℝ × ℝ) (h : 0 < dbl a b c) :
    ∫ p in convexHull ℝ ({a, b, c} : Set (ℝ × ℝ)), p.2 = dbl a b c / 6 * (a.2 + b.2 + c.2) := by
  rw [tri_integral a b c h]
  have := integral_sq a.2 (b.2 - a.2) (c.2 - b.2) 0 0 0
  rw [show (∫ p in sq, p.1 * (fan a b c p).2) = ∫ p in sq, (a.2 * p.1 + (b.2 - a.2) * p.1 ^ 2 + (c.2 - b.2) * p.1 ^ 2 * p.2 + 0 * p.1 ^ 3 +
    0 * p.1 ^ 3 * p.2 + 0 * p.1 ^ 3 * p.2 ^ 2) from by congr 1; funext p; simp only [fan]; ring, this]
  ring

/-- The polar moment about the origin. -/
theorem tri_polar (a b c : ℝ × ℝ) (h : 0 < dbl a b c) :
    ∫ p in convexHull ℝ ({a, b, c} : Set (ℝ × ℝ)), (p.1 ^ 2 + p.2 ^ 2) = dbl a b c / 12 *
      (a.1 * a.1 + a.2 * a.2 + (b.1 * b.1 + b.2 * b.2) + (c.1 * c.1 + c.2 * c.2) + (a.1 * b.1 + a.2 * b.2) + (b.1 * c.1 + b.2 * c.2) + (c.1 * a.1 + c.2 * a.2)) := by
  rw [tri_integral a b c h]
  have := integral_sq (a.1 ^ 2 + a.2 ^ 2) (2 * (a.1 * (b.1 - a.1) + a.2 * (b.2 - a.2))) (2 * (a.1 * (c.1 - b.1) + a.2 * (c.2 - b.2)))
    ((b.1 - a.1) ^ 2 + (b.2 - a.2) ^ 2) (2 * ((b.1 - a.1) * (c.1 - b.1) + (b.2 - a.2) * (c.2 - b.2))) ((c.1 - b.1) ^ 2 + (c.2 - b.2) ^ 2)
  have hq : ∀ p : ℝ × ℝ, p.1 * ((fan a b c p).1 ^ 2 + (fan a b c p).2 ^ 2) = (a.1 ^ 2 + a.2 ^ 2) * p.1 + (2 * (a.1 * (b.1 - a.1) + a.2 * (b.2 - a.2))) * p.1 ^ 2 + (2 * (a.1 * (c.1 - b.1) + a.2 * (c.2 - b.2))) * p.1 ^ 2 * p.2 +
      ((b.1 - a.1) ^ 2 + (b.2 - a.2) ^ 2) * p.1 ^ 3 + (2 * ((b.1 - a.1) * (c.1 - b.1) + (b.2 - a.2) * (c.2 - b.2))) * p.1 ^ 3 * p.2 + ((c.1 - b.1) ^ 2 + (c.2 - b.2) ^ 2) * p.1 ^ 3 * p.2 ^ 2 := by
    intro p; simp only [fan]; ring
  simp only [hq]
  rw [this]
  ring

end CP.Int
