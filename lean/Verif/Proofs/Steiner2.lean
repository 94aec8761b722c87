import Verif.Proofs.Steiner

/-! # The area of a convex polygon with a rounded border (for C47), continued -/

namespace CP.Int
open MeasureTheory Set
open scoped Pointwise

theorem tri_mem' {a b c x : ℝ × ℝ} : x ∈ convexHull ℝ ({a, b, c} : Set (ℝ × ℝ)) ↔
    ∃ u v w : ℝ, 0 ≤ u ∧ 0 ≤ v ∧ 0 ≤ w ∧ u + v + w = 1 ∧ x = u • a + v • b + w • c := by
  rw [tri_mem]; rfl

/-- The area. -/
noncomputable def ar (S : Set (ℝ × ℝ)) : ℝ := (volume S).toReal

theorem ar_disc {r : ℝ} (hr : 0 ≤ r) : ar (disc r) = Real.pi * r ^ 2 := by
  rw [ar, disc_volume hr, ENNReal.toReal_ofReal (by positivity)]

theorem ar_strip {r : ℝ} (hr : 0 ≤ r) (a b : ℝ × ℝ) :
    ar (segment ℝ 0 a + disc r + segment ℝ 0 b) = ar (segment ℝ 0 a + disc r) + (|a.1 * b.2 - a.2 * b.1| + 2 * r * len b) := by
  by_cases hb : b = 0
  · subst hb; simp [len]
  have f1 := ((segment_compact 0 a).add (disc_compact hr)).measure_lt_top (μ := volume)
  have : (0 : ℝ) ≤ len b := Real.sqrt_nonneg _
  rw [ar, strip hr a hb, ENNReal.toReal_add f1.ne ENNReal.ofReal_ne_top, ENNReal.toReal_ofReal (by positivity), ar]

theorem ar_capsule0 {r : ℝ} (hr : 0 ≤ r) (a : ℝ × ℝ) : ar (segment ℝ 0 a + disc r) = Real.pi * r ^ 2 + 2 * r * len a := by
  have := ar_strip hr 0 a
  simp only [segment_same, Prod.fst_zero, Prod.snd_zero, zero_mul, sub_zero, abs_zero, zero_add] at this
  rw [singleton_zero, zero_add, ar_disc hr] at this
  rw [add_comm, this]

theorem ar_add_left (a : ℝ × ℝ) (S : Set (ℝ × ℝ)) : ar ({a} + S) = ar S := by
  rw [ar, singleton_add, measure_vadd_aux, ar]
where
  measure_vadd_aux : volume ((a + ·) '' S) = volume S := by
    have := measure_vadd (μ := (volume : Measure (ℝ × ℝ))) a S
    exact this

theorem segment_shift (a b : ℝ × ℝ) : segment ℝ a b = {a} + segment ℝ 0 (b - a) := by
  rw [singleton_add]
  have := segment_translate_image ℝ a 0 (b - a)
  rw [this]; simp

theorem ar_capsule {r : ℝ} (hr : 0 ≤ r) (a b : ℝ × ℝ) : ar (segment ℝ a b + disc r) = Real.pi * r ^ 2 + 2 * r * len (b - a) := by
  rw [segment_shift, add_assoc, ar_add_left, ar_capsule0 hr]

/-- Rounding is additive. -/
theorem valuation {r : ℝ} (hr : 0 ≤ r) {K L : Set (ℝ × ℝ)} (hK : IsCompact K) (hL : IsCompact L) (h : Convex ℝ (K ∪ L)) :
    ar ((K ∪ L) + disc r) + ar ((K ∩ L) + disc r) = ar (K + disc r) + ar (L + disc r) := by
  have cK := hK.add (disc_compact hr)
  have cL := hL.add (disc_compact hr)
  have e : (K ∩ L) + disc r = (K + disc r) ∩ (L + disc r) := by
    apply Subset.antisymm
    · rintro _ ⟨p, ⟨h1, h2⟩, q, hq, rfl⟩
      exact ⟨⟨p, h1, q, hq, rfl⟩, ⟨p, h2, q, hq, rfl⟩⟩
    · rintro x ⟨⟨p, hp, q, hq, rfl⟩, p', hp', q', hq', e⟩
      have hsub : segment ℝ p p' ⊆ K ∪ L := h.segment_subset (.inl hp) (.inr hp')
      obtain ⟨z, hz, zK, zL⟩ := isPreconnected_closed_iff.1 (convex_segment p p').isPreconnected K L hK.isClosed hL.isClosed hsub
        ⟨p, left_mem_segment ℝ _ _, hp⟩ ⟨p', right_mem_segment ℝ _ _, hp'⟩
      obtain ⟨u, v, hu, hv, huv, rfl⟩ := hz
      refine ⟨_, ⟨zK, zL⟩, u • q + v • q', disc_convex hr hq hq' hu hv huv, ?_⟩
      have e' : p' + q' = p + q := e
      show u • p + v • p' + (u • q + v • q') = p + q
      calc u • p + v • p' + (u • q + v • q') = u • (p + q) + v • (p' + q') := by rw [smul_add, smul_add]; abel
        _ = p + q := by rw [e', ← add_smul, huv, one_smul]
  rw [e, union_add]
  simp only [ar]
  rw [← ENNReal.toReal_add, measure_union_add_inter _ cL.isClosed.measurableSet, ENNReal.toReal_add cK.measure_lt_top.ne cL.measure_lt_top.ne]
  · exact (cK.union cL).measure_lt_top.ne
  · exact ((cK.inter cL)).measure_lt_top.ne

theorem ar_reflect (c : ℝ × ℝ) (S : Set (ℝ × ℝ)) : ar ((fun x => c - x) '' S) = ar S := by
  have h1 : (fun x => c - x) '' S = {c} + (-S) := by
    rw [singleton_add, ← image_neg_eq_neg, image_image]
    simp only [sub_eq_add_neg]
  rw [h1, ar_add_left]
  simp only [ar]
  rw [Measure.measure_neg]

theorem tri_ar {r : ℝ} (hr : 0 ≤ r) {a b c : ℝ × ℝ} (h : 0 < dbl a b c) :
    ar (convexHull ℝ {a, b, c} + disc r) = Real.pi * r ^ 2 + r * (len (b - a) + len (c - b) + len (a - c)) + dbl a b c / 2 := by
  have fin : ∀ x y z : ℝ × ℝ, IsCompact (convexHull ℝ ({x, y, z} : Set (ℝ × ℝ))) := fun x y z => (toFinite _ : ({x, y, z} : Set (ℝ × ℝ)).Finite).isCompact_convexHull ℝ
  obtain ⟨d, hd⟩ : ∃ d, d = b + c - a := ⟨_, rfl⟩
  have hP : convexHull ℝ {a, b, c} ∪ convexHull ℝ {d, c, b} = {a} + (segment ℝ 0 (b - a) + segment ℝ 0 (c - a)) := by
    apply Subset.antisymm
    · rintro x (hx | hx)
      · obtain ⟨u, v, w, hu, hv, hw, e, rfl⟩ := tri_mem'.1 hx
        refine ⟨a, rfl, v • (b - a) + w • (c - a), ⟨v • (b - a), ⟨1 - v, v, by linarith, hv, by ring, by simp⟩, w • (c - a), ⟨1 - w, w, by linarith, hw, by ring, by simp⟩, rfl⟩, ?_⟩
        have : u = 1 - v - w := by linarith
        subst this
        simp only
        module
      · obtain ⟨u, v, w, hu, hv, hw, e, rfl⟩ := tri_mem'.1 hx
        refine ⟨a, rfl, (u + w) • (b - a) + (u + v) • (c - a), ⟨(u + w) • (b - a), ⟨v, u + w, hv, by linarith, by linarith, by simp⟩,
          (u + v) • (c - a), ⟨w, u + v, hw, by linarith, by linarith, by simp⟩, rfl⟩, ?_⟩
        have : u = 1 - v - w := by linarith
        subst this
        subst hd
        simp only
        module
    · rintro _ ⟨_, rfl, _, ⟨_, ⟨s', s, hs', hs, hss, rfl⟩, _, ⟨t', t, ht', ht, htt, rfl⟩, rfl⟩, rfl⟩
      have e1 : s' = 1 - s := by linarith
      have e2 : t' = 1 - t := by linarith
      subst e1 e2
      by_cases hst : s + t ≤ 1
      · refine .inl (tri_mem'.2 ⟨1 - s - t, s, t, by linarith, hs, ht, by ring, ?_⟩)
        simp only [mem_singleton_iff]
        module
      · push Not at hst
        refine .inr (tri_mem'.2 ⟨s + t - 1, 1 - s, 1 - t, by linarith, hs', ht', by ring, ?_⟩)
        subst hd
        simp only [mem_singleton_iff]
        module
  have hI : convexHull ℝ {a, b, c} ∩ convexHull ℝ {d, c, b} = segment ℝ b c := by
    apply Subset.antisymm
    · rintro x ⟨hx, hx'⟩
      obtain ⟨u, v, w, hu, hv, hw, e, rfl⟩ := tri_mem'.1 hx
      obtain ⟨u', v', w', hu', hv', hw', e', ee⟩ := tri_mem'.1 hx'
      have g : dbl b c (u • a + v • b + w • c) = u * dbl a b c := by
        simp only [dbl, Prod.fst_add, Prod.snd_add, Prod.smul_fst, Prod.smul_snd, smul_eq_mul]
        have : u = 1 - v - w := by linarith
        subst this; ring
      have g' : dbl b c (u • a + v • b + w • c) = - (u' * dbl a b c) := by
        rw [ee, hd]
        simp only [dbl, Prod.fst_add, Prod.snd_add, Prod.smul_fst, Prod.smul_snd, smul_eq_mul, Prod.fst_sub, Prod.snd_sub]
        have : u' = 1 - v' - w' := by linarith
        subst this; ring
      have u0 : u = 0 := by
        have : u * dbl a b c = - (u' * dbl a b c) := g.symm.trans g'
        by_contra hn
        have := lt_of_le_of_ne hu (Ne.symm hn)
        nlinarith [mul_pos this h, mul_nonneg hu' h.le]
      subst u0
      exact ⟨v, w, hv, hw, by linarith, by simp⟩
    · rintro _ ⟨v, w, hv, hw, e, rfl⟩
      exact ⟨tri_mem'.2 ⟨0, v, w, le_rfl, hv, hw, by linarith, by simp⟩, tri_mem'.2 ⟨0, w, v, le_rfl, hw, hv, by linarith, by simp [add_comm]⟩⟩
  have hR : convexHull ℝ {d, c, b} + disc r = (fun x => (b + c) - x) '' (convexHull ℝ {a, b, c} + disc r) := by
    apply Subset.antisymm
    · rintro _ ⟨p, hp, q, hq, rfl⟩
      obtain ⟨u, v, w, hu, hv, hw, e, rfl⟩ := tri_mem'.1 hp
      refine ⟨(u • a + v • b + w • c) + -q, ⟨_, tri_mem'.2 ⟨u, v, w, hu, hv, hw, e, rfl⟩, -q, ?_, rfl⟩, ?_⟩
      · show (-q).1 ^ 2 + (-q).2 ^ 2 ≤ r ^ 2
        simp only [Prod.fst_neg, Prod.snd_neg, neg_sq]; exact hq
      · have : u = 1 - v - w := by linarith
        subst this hd
        simp only
        module
    · rintro _ ⟨_, ⟨p, hp, q, hq, rfl⟩, rfl⟩
      obtain ⟨u, v, w, hu, hv, hw, e, rfl⟩ := tri_mem'.1 hp
      refine ⟨u • d + v • c + w • b, tri_mem'.2 ⟨u, v, w, hu, hv, hw, e, rfl⟩, -q, ?_, ?_⟩
      · show (-q).1 ^ 2 + (-q).2 ^ 2 ≤ r ^ 2
        simp only [Prod.fst_neg, Prod.snd_neg, neg_sq]; exact hq
      · have : u = 1 - v - w := by linarith
        subst this hd
        simp only
        module
  have val := valuation hr (fin a b c) (fin d c b) (by
    rw [hP]; exact (convex_singleton a).add ((convex_segment _ _).add (convex_segment _ _)))
  rw [hI, hR, ar_reflect, ar_capsule hr, hP, add_assoc, ar_add_left, add_assoc, add_comm (segment ℝ 0 (c - a)), ← add_assoc (segment ℝ 0 (b - a)),
    ar_strip hr, ar_capsule0 hr] at val
  have e1 : |(b - a).1 * (c - a).2 - (b - a).2 * (c - a).1| = dbl a b c := by
    rw [abs_of_pos]
    · simp [dbl]
    · simpa [dbl] using h
  have e2 : len (a - c) = len (c - a) := by
    simp only [len, Prod.fst_sub, Prod.snd_sub]
    congr 1; ring
  rw [e1] at val
  rw [e2]
  linarith

/-- The formula for the area of a rounded convex polygon. -/
theorem poly_ar {v : Nat → Vec ℝ} {r : ℝ} (hr : 0 ≤ r) :
    ∀ n, 3 ≤ n → Fan v n → ar (convexHull ℝ (cloud v n) + disc r) =
      Real.pi * r ^ 2 + r * edgeSum n v (fun a b => len (pr b - pr a)) + edgeSum n v Vec.cross / 2 := by
  intro n hn
  induction n, hn using Nat.le_induction with
  | base =>
    intro h
    have hc : cloud v 3 = {pr (v 0), pr (v 1), pr (v 2)} := by
      ext p
      constructor
      · rintro ⟨i, hi, rfl⟩
        interval_cases i <;> simp
      · rintro (rfl | rfl | rfl)
        · exact ⟨0, by omega, rfl⟩
        · exact ⟨1, by omega, rfl⟩
        · exact ⟨2, by omega, rfl⟩
    rw [hc, tri_ar hr (h.fan 1 2 (by omega) (by omega) (by omega))]
    simp only [edgeSum, Finset.sum_range_succ, Finset.sum_range_zero]
    norm_num
    simp only [dbl, pr, Vec.cross]; ring
  | succ n hn ih =>
    intro h
    have hf : Fan v n := ⟨fun j k h1 h2 h3 => h.fan j k h1 h2 (by omega), fun k h1 h2 => h.edge k h1 (by omega)⟩
    have q0 : 0 < dbl (pr (v 0)) (pr (v (n - 1))) (pr (v n)) := h.fan _ _ (by omega) (by omega) (by omega)
    have right : ∀ p ∈ cloud v n, dbl (pr (v 0)) (pr (v (n - 1))) p ≤ 0 := by
      rintro p ⟨i, hi, rfl⟩
      by_cases hi0 : i = 0
      · subst hi0; simp only [dbl]; linarith
      by_cases hi1 : i = n - 1
      · subst hi1; simp only [dbl]; linarith
      have := h.fan i (n - 1) (by omega) (by omega) (by omega)
      rw [dbl_swap]; linarith
    have h1 : ∀ p ∈ cloud v n, dbl (pr (v 0)) (pr (v n)) p ≤ 0 := by
      rintro p ⟨i, hi, rfl⟩
      by_cases hi0 : i = 0
      · subst hi0; simp only [dbl]; linarith
      have := h.fan i n (by omega) (by omega) (by omega)
      rw [dbl_swap]; linarith
    have h2 : ∀ p ∈ cloud v n, 0 ≤ dbl (pr (v (n - 1))) (pr (v n)) p := by
      rintro p ⟨i, hi, rfl⟩
      have := h.edge (n - 1) (by omega) (by omega) i (by omega)
      rwa [show n - 1 + 1 = n by omega] at this
    have m0 : pr (v 0) ∈ cloud v n := ⟨0, by omega, rfl⟩
    have m1 : pr (v (n - 1)) ∈ cloud v n := ⟨n - 1, by omega, rfl⟩
    have split := join_split ⟨_, m0⟩ m0 m1 right q0 h1 h2
    have hI : convexHull ℝ (cloud v n) ∩ convexHull ℝ ({pr (v 0), pr (v (n - 1)), pr (v n)} : Set (ℝ × ℝ)) = segment ℝ (pr (v 0)) (pr (v (n - 1))) := by
      apply Subset.antisymm
      · rintro p ⟨p1, p2⟩
        have r1 : dbl (pr (v 0)) (pr (v (n - 1))) p ≤ 0 :=
          convexHull_min (show cloud v n ⊆ {p | dbl (pr (v 0)) (pr (v (n - 1))) p ≤ 0} from right) (right_convex _ _) p1
        obtain ⟨α, β, γ, hα, hβ, hγ, e, rfl⟩ := tri_mem'.1 p2
        have g : dbl (pr (v 0)) (pr (v (n - 1))) (α • pr (v 0) + β • pr (v (n - 1)) + γ • pr (v n)) = γ * dbl (pr (v 0)) (pr (v (n - 1))) (pr (v n)) := by
          simp only [dbl, Prod.fst_add, Prod.snd_add, Prod.smul_fst, Prod.smul_snd, smul_eq_mul]
          have : α = 1 - β - γ := by linarith
          subst this; ring
        rw [g] at r1
        have g0 : γ = 0 := by
          by_contra hn
          have := lt_of_le_of_ne hγ (Ne.symm hn)
          nlinarith [mul_pos this q0]
        subst g0
        exact ⟨α, β, hα, hβ, by linarith, by simp⟩
      · refine subset_inter ?_ ?_
        · exact (convex_convexHull ℝ _).segment_subset (subset_convexHull ℝ _ m0) (subset_convexHull ℝ _ m1)
        · exact (convex_convexHull ℝ _).segment_subset (subset_convexHull ℝ _ (by simp)) (subset_convexHull ℝ _ (by simp))
    have fin3 : ({pr (v 0), pr (v (n - 1)), pr (v n)} : Set (ℝ × ℝ)).Finite := toFinite _
    have val := valuation hr ((cloud_finite v n).isCompact_convexHull ℝ) (fin3.isCompact_convexHull ℝ) (by
      rw [← split]; exact convex_convexHull ℝ _)
    rw [← split, hI, ar_capsule hr, ih hf, tri_ar hr q0] at val
    rw [cloud_succ]
    have len_swap : ∀ a b : ℝ × ℝ, len (a - b) = len (b - a) := by
      intro a b
      simp only [len, Prod.fst_sub, Prod.snd_sub]
      congr 1; ring
    have c1 : edgeSum (n + 1) v Vec.cross = edgeSum n v Vec.cross + dbl (pr (v 0)) (pr (v (n - 1))) (pr (v n)) := by
      rw [edgeSum_cut (n := n + 1) (k := n - 1) (by omega) (by omega) v Vec.cross (fun a b => by simp only [Vec.cross]; ring)]
      rw [show n - 1 + 1 = n by omega, show n + 1 - (n - 1) + 1 = 3 by omega]
      congr 1
      simp only [edgeSum, Finset.sum_range_succ, Finset.sum_range_zero, beyond]
      norm_num
      rw [show n - 1 + 1 = n by omega]
      simp only [dbl, pr, Vec.cross]; ring
    have c2 : edgeSum (n + 1) v (fun a b => len (pr b - pr a)) = edgeSum n v (fun a b => len (pr b - pr a))
        + len (pr (v n) - pr (v (n - 1))) + len (pr (v 0) - pr (v n)) - len (pr (v (n - 1)) - pr (v 0)) := by
      have m : ∀ k, 1 ≤ k → edgeSum (k + 1) v (fun a b => len (pr b - pr a)) =
          ∑ i ∈ Finset.range k, len (pr (v (i + 1)) - pr (v i)) + len (pr (v 0) - pr (v k)) := by
        intro k hk
        rw [edgeSum, Finset.sum_range_succ, Nat.mod_self]
        congr 1
        refine Finset.sum_congr rfl fun i hi => ?_
        rw [Nat.mod_eq_of_lt (by have := Finset.mem_range.1 hi; omega)]
      obtain ⟨k, rfl⟩ : ∃ k, n = k + 1 := ⟨n - 1, by omega⟩
      rw [m (k + 1) (by omega), m k (by omega), Finset.sum_range_succ, Nat.add_sub_cancel, len_swap (pr (v 0)) (pr (v k))]
      ring
    rw [c1, c2]
    linarith

end CP.Int
