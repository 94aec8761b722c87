import Verif.Proofs.Integrals4
import Mathlib.MeasureTheory.Measure.Lebesgue.VolumeOfBalls
import Mathlib.Topology.Order.Compact

/-! # The area of a convex polygon with a rounded border (for C47) -/

namespace CP.Int
open MeasureTheory Set
open scoped Pointwise

/-- The disc about the origin. -/
def disc (r : ℝ) : Set (ℝ × ℝ) := {p | p.1 ^ 2 + p.2 ^ 2 ≤ r ^ 2}

theorem disc_bound {r : ℝ} (hr : 0 ≤ r) {p : ℝ × ℝ} (h : p ∈ disc r) : (-r ≤ p.1 ∧ p.1 ≤ r) ∧ -r ≤ p.2 ∧ p.2 ≤ r := by
  have h' : p.1 ^ 2 + p.2 ^ 2 ≤ r ^ 2 := h
  exact ⟨abs_le.1 (abs_le_of_sq_le_sq (by nlinarith [sq_nonneg p.2]) hr), abs_le.1 (abs_le_of_sq_le_sq (by nlinarith [sq_nonneg p.1]) hr)⟩

theorem disc_compact {r : ℝ} (hr : 0 ≤ r) : IsCompact (disc r) := by
  refine IsCompact.of_isClosed_subset (isCompact_Icc.prod isCompact_Icc : IsCompact (Icc (-r) r ×ˢ Icc (-r) r)) ?_ ?_
  · exact isClosed_le (by fun_prop) continuous_const
  · intro p hp; exact disc_bound hr hp

theorem disc_convex {r : ℝ} (hr : 0 ≤ r) : Convex ℝ (disc r) := by
  intro p hp q hq a b ha hb hab
  have h1 : p.1 ^ 2 + p.2 ^ 2 ≤ r ^ 2 := hp
  have h2 : q.1 ^ 2 + q.2 ^ 2 ≤ r ^ 2 := hq
  show (a • p + b • q).1 ^ 2 + (a • p + b • q).2 ^ 2 ≤ r ^ 2
  simp only [Prod.fst_add, Prod.smul_fst, smul_eq_mul, Prod.snd_add, Prod.smul_snd]
  have e : b = 1 - a := by linarith
  subst e
  nlinarith [mul_nonneg ha hb, sq_nonneg (p.1 - q.1), sq_nonneg (p.2 - q.2), mul_nonneg (mul_nonneg ha hb) (sq_nonneg (p.1 - q.1)),
    mul_nonneg (mul_nonneg ha hb) (sq_nonneg (p.2 - q.2)), mul_le_mul_of_nonneg_left h1 ha, mul_le_mul_of_nonneg_left h2 hb]

theorem disc_volume {r : ℝ} (hr : 0 ≤ r) : volume (disc r) = ENNReal.ofReal (Real.pi * r ^ 2) := by
  have h := Complex.volume_closedBall 0 r
  rw [← Complex.volume_preserving_equiv_real_prod.symm.measure_preimage (Metric.isClosed_closedBall.measurableSet.nullMeasurableSet)] at h
  have e : Complex.measurableEquivRealProd.symm ⁻¹' Metric.closedBall 0 r = disc r := by
    ext p
    simp only [mem_preimage, Metric.mem_closedBall, dist_zero_right, disc, mem_setOf_eq]
    rw [← abs_of_nonneg (norm_nonneg _), ← sq_le_sq₀ (abs_nonneg _) hr, sq_abs, Complex.sq_norm, Complex.normSq_apply]
    rw [show (Complex.measurableEquivRealProd.symm p).re = p.1 from rfl, show (Complex.measurableEquivRealProd.symm p).im = p.2 from rfl]
    constructor <;> intro h <;> nlinarith
  rw [e] at h
  rw [h, mul_comm, ENNReal.ofReal_mul Real.pi_pos.le, ENNReal.ofReal_pow hr]
  congr 1
  exact (ENNReal.ofReal_coe_nnreal (p := NNReal.pi)).symm

/-- Sweeping a convex set along a vertical segment. -/
theorem sweep {S : Set (ℝ × ℝ)} (hc : IsCompact S) (hv : Convex ℝ S) {d : ℝ} (hd : 0 ≤ d) :
    volume (S + ({0} : Set ℝ) ×ˢ Icc 0 d) = volume S + ENNReal.ofReal d * volume (Prod.fst '' S) := by
  have hc2 : IsCompact (S + ({0} : Set ℝ) ×ˢ Icc 0 d) := hc.add (isCompact_singleton.prod isCompact_Icc)
  have hf : IsCompact (Prod.fst '' S) := hc.image continuous_fst
  rw [Measure.volume_eq_prod, Measure.prod_apply hc2.isClosed.measurableSet, Measure.prod_apply hc.isClosed.measurableSet]
  have key : ∀ x : ℝ, volume (Prod.mk x ⁻¹' (S + ({0} : Set ℝ) ×ˢ Icc 0 d)) = volume (Prod.mk x ⁻¹' S) + (Prod.fst '' S).indicator (fun _ => ENNReal.ofReal d) x := by
    intro x
    by_cases hx : x ∈ Prod.fst '' S
    · rw [indicator_of_mem hx]
      obtain ⟨⟨x', y0⟩, hy0, rfl⟩ := hx
      simp only
      have hcomp : IsCompact (Prod.mk x' ⁻¹' S) := by
        refine (hc.image continuous_snd).of_isClosed_subset (hc.isClosed.preimage (by fun_prop)) ?_
        intro y hy; exact ⟨(x', y), hy, rfl⟩
      have hconv : Convex ℝ (Prod.mk x' ⁻¹' S) := by
        intro y1 h1 y2 h2 a b ha hb hab
        have := hv h1 h2 ha hb hab
        have e : a • (x', y1) + b • (x', y2) = (x', a • y1 + b • y2) := by
          ext
          · simp only [Prod.fst_add, Prod.smul_fst, smul_eq_mul]; rw [← add_mul, hab, one_mul]
          · rfl
        rw [e] at this
        exact this
      have hne : (Prod.mk x' ⁻¹' S).Nonempty := ⟨y0, hy0⟩
      have hI := eq_Icc_of_connected_compact ⟨hne, hconv.isPreconnected⟩ hcomp
      obtain ⟨lo, hlo⟩ : ∃ lo, lo = sInf (Prod.mk x' ⁻¹' S) := ⟨_, rfl⟩
      obtain ⟨hi, hhi⟩ : ∃ hi, hi = sSup (Prod.mk x' ⁻¹' S) := ⟨_, rfl⟩
      rw [← hlo, ← hhi] at hI
      have hle : lo ≤ hi := by
        have : y0 ∈ Icc lo hi := hI ▸ hy0
        exact this.1.trans this.2
      have hI2 : Prod.mk x' ⁻¹' (S + ({0} : Set ℝ) ×ˢ Icc 0 d) = Icc lo (hi + d) := by
        ext y
        constructor
        · rintro ⟨p, hp, q, ⟨hq1, hq2⟩, e⟩
          simp only [mem_singleton_iff] at hq1
          obtain ⟨p1, p2⟩ := p
          obtain ⟨q1, q2⟩ := q
          simp only [Prod.mk_add_mk, Prod.mk.injEq] at e hq1 hq2
          obtain ⟨e1, rfl⟩ := e
          have e3 : p1 = x' := by rw [hq1] at e1; simpa using e1
          subst e3
          have : p2 ∈ Icc lo hi := hI ▸ hp
          exact ⟨by linarith [this.1, hq2.1], by linarith [this.2, hq2.2]⟩
        · rintro ⟨h1, h2⟩
          have hm : min y hi ∈ Icc lo hi := ⟨le_min h1 hle, min_le_right _ _⟩
          rw [← hI] at hm
          refine ⟨(x', min y hi), hm, (0, y - min y hi), ⟨rfl, ?_, ?_⟩, ?_⟩
          · simp only; linarith [min_le_left y hi]
          · simp only
            rcases le_total y hi with h | h
            · rw [min_eq_left h]; linarith
            · rw [min_eq_right h]; linarith
          · simp
      rw [hI2, hI, Real.volume_Icc, Real.volume_Icc, ← ENNReal.ofReal_add (by linarith) hd]
      congr 1; ring
    · rw [indicator_of_notMem hx]
      have e1 : Prod.mk x ⁻¹' S = ∅ := by
        ext y; simp only [mem_preimage, mem_empty_iff_false, iff_false]; intro h; exact hx ⟨_, h, rfl⟩
      have e2 : Prod.mk x ⁻¹' (S + ({0} : Set ℝ) ×ˢ Icc 0 d) = ∅ := by
        ext y; simp only [mem_preimage, mem_empty_iff_false, iff_false]
        rintro ⟨p, hp, q, ⟨hq1, hq2⟩, e⟩
        simp only [mem_singleton_iff] at hq1
        refine hx ⟨p, hp, ?_⟩
        have := congrArg Prod.fst e
        simp only [Prod.fst_add, hq1, add_zero] at this
        exact this
      rw [e1, e2]; simp
  simp only [key]
  rw [lintegral_add_right _ (measurable_const.indicator hf.isClosed.measurableSet), lintegral_indicator_const hf.isClosed.measurableSet]

/-- A rotation. -/
noncomputable def rot (c s : ℝ) : ℝ × ℝ →ₗ[ℝ] ℝ × ℝ :=
  Matrix.toLin (Module.Basis.finTwoProd ℝ) (Module.Basis.finTwoProd ℝ) !![c, s; -s, c]

theorem rot_apply (c s : ℝ) (p : ℝ × ℝ) : rot c s p = (c * p.1 + s * p.2, -s * p.1 + c * p.2) := by
  rw [rot, Matrix.toLin_finTwoProd_apply]

theorem rot_volume {c s : ℝ} (h : c ^ 2 + s ^ 2 = 1) (S : Set (ℝ × ℝ)) : volume (rot c s '' S) = volume S := by
  rw [Measure.addHaar_image_linearMap, rot, LinearMap.det_toLin, Matrix.det_fin_two_of]
  have : c * c - s * -s = 1 := by linarith
  rw [this]; simp

theorem rot_disc {c s : ℝ} (h : c ^ 2 + s ^ 2 = 1) (r : ℝ) : rot c s '' disc r = disc r := by
  have key : ∀ {c s : ℝ}, c ^ 2 + s ^ 2 = 1 → ∀ p ∈ disc r, rot c s p ∈ disc r := by
    intro c s h p hp
    have hp' : p.1 ^ 2 + p.2 ^ 2 ≤ r ^ 2 := hp
    rw [rot_apply]
    show (c * p.1 + s * p.2) ^ 2 + (-s * p.1 + c * p.2) ^ 2 ≤ r ^ 2
    have : (c * p.1 + s * p.2) ^ 2 + (-s * p.1 + c * p.2) ^ 2 = (c ^ 2 + s ^ 2) * (p.1 ^ 2 + p.2 ^ 2) := by ring
    rw [this, h, one_mul]; exact hp'
  apply Subset.antisymm
  · rintro _ ⟨p, hp, rfl⟩; exact key h p hp
  · intro p hp
    refine ⟨rot c (-s) p, key (by rw [neg_sq]; exact h) p hp, ?_⟩
    rw [rot_apply, rot_apply]
    ext
    · simp only; linear_combination p.1 * h
    · simp only; linear_combination p.2 * h

/-- The length of a vector. -/
noncomputable def len (a : ℝ × ℝ) : ℝ := √(a.1 ^ 2 + a.2 ^ 2)

theorem len_sq (a : ℝ × ℝ) : len a ^ 2 = a.1 ^ 2 + a.2 ^ 2 := Real.sq_sqrt (by positivity)

theorem len_pos {a : ℝ × ℝ} (h : a ≠ 0) : 0 < len a := by
  refine Real.sqrt_pos.2 ?_
  by_contra hn
  apply h
  have h1 : a.1 = 0 := by nlinarith [sq_nonneg a.1, sq_nonneg a.2]
  have h2 : a.2 = 0 := by nlinarith [sq_nonneg a.1, sq_nonneg a.2]
  exact Prod.ext h1 h2

theorem segment_compact {E : Type*} [NormedAddCommGroup E] [NormedSpace ℝ E] (a b : E) : IsCompact (segment ℝ a b) := by
  rw [← convexHull_pair]; exact (toFinite _ : ({a, b} : Set E).Finite).isCompact_convexHull ℝ

/-- The area of a segment swept along a vector and rounded. -/
theorem strip {r : ℝ} (hr : 0 ≤ r) (a : ℝ × ℝ) {b : ℝ × ℝ} (hb : b ≠ 0) :
    volume (segment ℝ 0 a + disc r + segment ℝ 0 b) = volume (segment ℝ 0 a + disc r) +
      ENNReal.ofReal (|a.1 * b.2 - a.2 * b.1| + 2 * r * len b) := by
  have l0 := len_pos hb
  have l2 := len_sq b
  have hu : (b.2 / len b) ^ 2 + (-b.1 / len b) ^ 2 = 1 := by field_simp; linarith
  have hb' : rot (b.2 / len b) (-b.1 / len b) b = (0, len b) := by
    rw [rot_apply]
    ext
    · simp only; ring
    · simp only; field_simp; linarith
  have hs : ∀ x, rot (b.2 / len b) (-b.1 / len b) '' segment ℝ 0 x = segment ℝ 0 (rot (b.2 / len b) (-b.1 / len b) x) := by
    intro x
    have := image_segment ℝ (rot (b.2 / len b) (-b.1 / len b)).toAffineMap 0 x
    simpa using this
  have hsb : segment ℝ (0 : ℝ × ℝ) (0, len b) = ({0} : Set ℝ) ×ˢ Icc 0 (len b) := by
    have h0 : (0 : ℝ × ℝ) = (0, 0) := rfl
    rw [h0, ← Prod.image_mk_segment_right, segment_eq_Icc l0.le]
    ext p
    constructor
    · rintro ⟨t, ht, rfl⟩; exact ⟨rfl, ht⟩
    · rintro ⟨h1, h2⟩
      exact ⟨p.2, h2, Prod.ext (by simpa using h1.symm) rfl⟩
  rw [← rot_volume hu (segment ℝ 0 a + disc r + segment ℝ 0 b), ← rot_volume hu (segment ℝ 0 a + disc r)]
  rw [image_add, image_add, rot_disc hu, hs, hs, hb', hsb,
    sweep ((segment_compact _ _).add (disc_compact hr)) ((convex_segment _ _).add (disc_convex hr)) l0.le]
  congr 1
  obtain ⟨a', ha'⟩ : ∃ a', a' = rot (b.2 / len b) (-b.1 / len b) a := ⟨_, rfl⟩
  rw [← ha']
  have e1 : a'.1 * len b = a.1 * b.2 - a.2 * b.1 := by rw [ha', rot_apply]; simp only; field_simp; ring
  have e2 : Prod.fst '' (segment ℝ 0 a' + disc r) = Icc (min 0 a'.1 - r) (max 0 a'.1 + r) := by
    ext x
    constructor
    · rintro ⟨_, ⟨p, hp, q, hq, rfl⟩, rfl⟩
      obtain ⟨u, v, hu, hv, huv, rfl⟩ := hp
      have := disc_bound hr hq
      simp only [Prod.fst_add, Prod.smul_fst, smul_eq_mul, Prod.fst_zero, mul_zero, zero_add]
      have v1 : v ≤ 1 := by linarith
      constructor
      · rcases le_total 0 a'.1 with h | h
        · rw [min_eq_left h]; nlinarith [mul_nonneg hv h]
        · rw [min_eq_right h]; nlinarith
      · rcases le_total 0 a'.1 with h | h
        · rw [max_eq_right h]; nlinarith [mul_nonneg hv h]
        · rw [max_eq_left h]; nlinarith
    · rintro ⟨h1, h2⟩
      have : ∃ v, 0 ≤ v ∧ v ≤ 1 ∧ -r ≤ x - v * a'.1 ∧ x - v * a'.1 ≤ r := by
        by_cases c1 : x - r ≤ 0 ∧ 0 ≤ x + r
        · exact ⟨0, le_rfl, zero_le_one, by linarith, by linarith⟩
        by_cases c2 : x - r ≤ a'.1 ∧ a'.1 ≤ x + r
        · exact ⟨1, zero_le_one, le_rfl, by linarith, by linarith⟩
        have ha : a'.1 ≠ 0 := fun h => by rw [h] at h1 h2; simp at h1 h2; exact c1 ⟨by linarith, by linarith⟩
        refine ⟨x / a'.1, ?_, ?_, ?_, ?_⟩
        · rcases lt_or_gt_of_ne ha with h | h
          · rw [max_eq_left h.le] at h2; rw [min_eq_right h.le] at h1
            refine div_nonneg_of_nonpos ?_ h.le
            by_contra hx; push Not at hx
            exact c1 ⟨by linarith, by linarith⟩
          · rw [max_eq_right h.le] at h2; rw [min_eq_left h.le] at h1
            refine div_nonneg ?_ h.le
            by_contra hx; push Not at hx
            exact c1 ⟨by linarith, by linarith⟩
        · rcases lt_or_gt_of_ne ha with h | h
          · rw [max_eq_left h.le] at h2; rw [min_eq_right h.le] at h1
            rw [div_le_one_of_neg h]
            by_contra hx; push Not at hx
            exact c2 ⟨by linarith, by linarith⟩
          · rw [max_eq_right h.le] at h2; rw [min_eq_left h.le] at h1
            rw [div_le_one h]
            by_contra hx; push Not at hx
            exact c2 ⟨by linarith, by linarith⟩
        · rw [div_mul_cancel₀ _ ha]; linarith
        · rw [div_mul_cancel₀ _ ha]; linarith
      obtain ⟨v, v0, v1, w1, w2⟩ := this
      refine ⟨v • a' + (x - v * a'.1, 0), ⟨v • a', ⟨1 - v, v, by linarith, v0, by ring, by simp⟩, (x - v * a'.1, 0), ?_, rfl⟩, by simp⟩
      show (x - v * a'.1) ^ 2 + 0 ^ 2 ≤ r ^ 2
      nlinarith
  rw [e2, Real.volume_Icc, ← ENNReal.ofReal_mul l0.le]
  congr 1
  rw [← e1, abs_mul, abs_of_pos l0]
  rcases le_total 0 a'.1 with h | h
  · rw [max_eq_right h, min_eq_left h, abs_of_nonneg h]; ring
  · rw [max_eq_left h, min_eq_right h, abs_of_nonpos h]; ring

end CP.Int
