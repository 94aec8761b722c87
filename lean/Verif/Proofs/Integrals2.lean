import Verif.Proofs.Integrals
import Verif.Props.Mass

/-! # Integrals over convex polygons (for C47) -/

namespace CP.Int
open MeasureTheory Set

theorem dbl_affine (a b p q : ℝ × ℝ) (u v : ℝ) (h : u + v = 1) : dbl a b (u • p + v • q) = u * dbl a b p + v * dbl a b q := by
  obtain rfl : u = 1 - v := by linarith
  simp only [dbl, Prod.fst_add, Prod.snd_add, Prod.smul_fst, Prod.smul_snd, smul_eq_mul]; ring

/-- A half plane is convex. -/
theorem left_convex (a b : ℝ × ℝ) : Convex ℝ {p | 0 ≤ dbl a b p} := by
  intro p hp q hq u v hu hv h
  simp only [mem_setOf_eq] at hp hq ⊢
  rw [dbl_affine a b p q u v h]
  exact add_nonneg (mul_nonneg hu hp) (mul_nonneg hv hq)

theorem right_convex (a b : ℝ × ℝ) : Convex ℝ {p | dbl a b p ≤ 0} := by
  intro p hp q hq u v hu hv h
  simp only [mem_setOf_eq] at hp hq ⊢
  rw [dbl_affine a b p q u v h]
  nlinarith [mul_nonneg hu (neg_nonneg.2 hp), mul_nonneg hv (neg_nonneg.2 hq)]

/-- The line through two different points has no area. -/
theorem line_null {a b : ℝ × ℝ} (h : a ≠ b) : volume {p | dbl a b p = 0} = 0 := by
  have : {p | dbl a b p = 0} ⊆ (AffineSubspace.mk' a (Submodule.span ℝ {b - a}) : Set (ℝ × ℝ)) := by
    intro p hp
    simp only [mem_setOf_eq, dbl] at hp
    rw [SetLike.mem_coe, AffineSubspace.mem_mk', Submodule.mem_span_singleton]
    have hn : (b.1 - a.1) ^ 2 + (b.2 - a.2) ^ 2 ≠ 0 := by
      intro e
      apply h
      have h1 : b.1 - a.1 = 0 := by nlinarith [sq_nonneg (b.1 - a.1), sq_nonneg (b.2 - a.2)]
      have h2 : b.2 - a.2 = 0 := by nlinarith [sq_nonneg (b.1 - a.1), sq_nonneg (b.2 - a.2)]
      ext <;> linarith
    refine ⟨((p.1 - a.1) * (b.1 - a.1) + (p.2 - a.2) * (b.2 - a.2)) / ((b.1 - a.1) ^ 2 + (b.2 - a.2) ^ 2), ?_⟩
    ext
    · simp; field_simp; linear_combination (b.2 - a.2) * hp
    · simp; field_simp; linear_combination -(b.1 - a.1) * hp
  refine measure_mono_null this (Measure.addHaar_affineSubspace _ _ ?_)
  intro e
  have hd := congrArg AffineSubspace.direction e
  rw [AffineSubspace.direction_mk', AffineSubspace.direction_top] at hd
  have := congrArg (fun S : Submodule ℝ (ℝ × ℝ) => Module.finrank ℝ S) hd
  simp only [finrank_top, Module.finrank_prod, Module.finrank_self] at this
  have h2 := finrank_span_le_card (R := ℝ) ({b - a} : Set (ℝ × ℝ))
  simp at h2
  omega

/-- One step: the hull of a set on one side of a chord and a point on the other side. -/
theorem join_split {S : Set (ℝ × ℝ)} {a b x : ℝ × ℝ} (hS : S.Nonempty) (ha : a ∈ S) (hb : b ∈ S)
    (right : ∀ p ∈ S, dbl a b p ≤ 0) (hx : 0 < dbl a b x) (h1 : ∀ p ∈ S, dbl a x p ≤ 0) (h2 : ∀ p ∈ S, 0 ≤ dbl b x p) :
    convexHull ℝ (insert x S) = convexHull ℝ S ∪ convexHull ℝ ({a, b, x} : Set (ℝ × ℝ)) := by
  have cS := convex_convexHull ℝ S
  have aS := subset_convexHull ℝ S ha
  have bS := subset_convexHull ℝ S hb
  have xT : x ∈ convexHull ℝ ({a, b, x} : Set (ℝ × ℝ)) := subset_convexHull ℝ _ (by simp)
  have aT : a ∈ convexHull ℝ ({a, b, x} : Set (ℝ × ℝ)) := subset_convexHull ℝ _ (by simp)
  have bT : b ∈ convexHull ℝ ({a, b, x} : Set (ℝ × ℝ)) := subset_convexHull ℝ _ (by simp)
  have rS : ∀ p ∈ convexHull ℝ S, dbl a b p ≤ 0 := fun p hp => convexHull_min (show S ⊆ {p | dbl a b p ≤ 0} from right) (right_convex a b) hp
  have h1S : ∀ p ∈ convexHull ℝ S, dbl a x p ≤ 0 := fun p hp => convexHull_min (show S ⊆ {p | dbl a x p ≤ 0} from h1) (right_convex a x) hp
  have h2S : ∀ p ∈ convexHull ℝ S, 0 ≤ dbl b x p := fun p hp => convexHull_min (show S ⊆ {p | 0 ≤ dbl b x p} from h2) (left_convex b x) hp
  refine subset_antisymm ?_ (union_subset (convexHull_mono (subset_insert _ _)) (convexHull_mono ?_))
  · rw [convexHull_insert hS]
    intro p hp
    rw [mem_convexJoin] at hp
    obtain ⟨y, hy, q, hq, m, n, hm, hn, hmn, rfl⟩ := hp
    obtain rfl := hy
    have hq0 := rS q hq
    -- the point of the segment on the chord
    set d := dbl a b y with hd
    set e := dbl a b q with he
    have hde : 0 < d - e := by linarith
    set c : ℝ × ℝ := (-e / (d - e)) • y + (d / (d - e)) • q with hc
    have w1 : 0 ≤ -e / (d - e) := div_nonneg (by linarith) hde.le
    have w2 : 0 ≤ d / (d - e) := div_nonneg hx.le hde.le
    have w3 : -e / (d - e) + d / (d - e) = 1 := by field_simp; ring
    have hcz : dbl a b c = 0 := by
      rw [hc, dbl_affine a b y q _ _ w3, ← hd, ← he]; field_simp; ring
    have hc1 : dbl a y c ≤ 0 := by
      rw [hc, dbl_affine a y y q _ _ w3]
      have : dbl a y y = 0 := by simp only [dbl]; ring
      rw [this]
      have := mul_nonpos_of_nonneg_of_nonpos w2 (h1S q hq)
      linarith
    have hc2 : 0 ≤ dbl b y c := by
      rw [hc, dbl_affine b y y q _ _ w3]
      have : dbl b y y = 0 := by simp only [dbl]; ring
      rw [this]
      have := mul_nonneg w2 (h2S q hq)
      linarith
    -- `c` is on the chord
    have hcs : c ∈ segment ℝ a b := by
      refine ⟨dbl b y c / d, -(dbl a y c) / d, div_nonneg hc2 hx.le, div_nonneg (by linarith) hx.le, ?_, ?_⟩
      · rw [← add_div, div_eq_one_iff_eq hx.ne', hd]
        simp only [dbl] at hcz ⊢
        linear_combination -hcz
      · have hx' := hx.ne'
        simp only [dbl] at hcz
        ext
        · simp only [Prod.fst_add, Prod.smul_fst, smul_eq_mul]
          field_simp
          rw [hd]; simp only [dbl]
          linear_combination -(y.1) * hcz
        · simp only [Prod.snd_add, Prod.smul_snd, smul_eq_mul]
          field_simp
          rw [hd]; simp only [dbl]
          linear_combination -(y.2) * hcz
    by_cases hside : dbl a b (m • y + n • q) ≤ 0
    · left
      -- between `c` and `q`
      have hcS : c ∈ convexHull ℝ S := cS.segment_subset aS bS hcs
      rw [dbl_affine a b y q m n hmn, ← hd, ← he] at hside
      by_cases e0 : e = 0
      · have m0 : m = 0 := by rw [e0] at hside; nlinarith
        subst m0
        have : n = 1 := by linarith
        subst this
        simpa using hq
      · have hneg : 0 < -e := by
          have := lt_of_le_of_ne hq0 e0
          linarith
        have e1 : m • y + n • q = (m * (d - e) / -e) • c + (1 - m * (d - e) / -e) • q := by
          have ne : -e ≠ 0 := hneg.ne'
          obtain rfl : n = 1 - m := by linarith
          rw [hc]
          have hne : d - e ≠ 0 := hde.ne'
          ext
          · simp only [Prod.fst_add, Prod.smul_fst, smul_eq_mul]; field_simp; ring
          · simp only [Prod.snd_add, Prod.smul_snd, smul_eq_mul]; field_simp; ring
        rw [e1]
        refine cS hcS hq (div_nonneg (mul_nonneg hm hde.le) hneg.le) ?_ (by ring)
        rw [sub_nonneg, div_le_one hneg]
        nlinarith
    · right
      push Not at hside
      rw [dbl_affine a b y q m n hmn, ← hd, ← he] at hside
      have cT : c ∈ convexHull ℝ ({a, b, y} : Set (ℝ × ℝ)) := (convex_convexHull ℝ _).segment_subset aT bT hcs
      have e1 : m • y + n • q = (1 - n * (d - e) / d) • y + (n * (d - e) / d) • c := by
        obtain rfl : m = 1 - n := by linarith
        have hne : d - e ≠ 0 := hde.ne'
        have hx' := hx.ne'
        rw [hc]
        ext
        · simp only [Prod.fst_add, Prod.smul_fst, smul_eq_mul]; field_simp; ring
        · simp only [Prod.snd_add, Prod.smul_snd, smul_eq_mul]; field_simp; ring
      rw [e1]
      refine convex_convexHull ℝ _ xT cT ?_ (div_nonneg (mul_nonneg hn hde.le) hx.le) (by ring)
      rw [sub_nonneg, div_le_one hx]
      nlinarith
  · intro p hp
    rcases hp with rfl | rfl | rfl
    · exact .inr ha
    · exact .inr hb
    · exact .inl rfl

end CP.Int
