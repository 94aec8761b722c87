import Verif.Props.RayShapes

/-! # Segment queries against segment shapes (for C45) -/

namespace CP
open GoFloat Set

theorem hull_two (p q : Vec ℝ) : HullOf [p, q] = OnSegment p q := by
  funext x
  apply propext
  constructor
  · intro hx
    induction hx with
    | pt h =>
      simp only [List.mem_cons, List.not_mem_nil, or_false] at h
      rcases h with rfl | rfl
      · exact ⟨0, le_rfl, zero_le_one, by ext <;> simp⟩
      · exact ⟨1, zero_le_one, le_rfl, by ext <;> simp⟩
    | mix _ _ h i1 i2 =>
      obtain ⟨s, s0, s1, rfl⟩ := i1
      obtain ⟨t, t0, t1, rfl⟩ := i2
      obtain ⟨w, w0, w1, rfl⟩ := h
      refine ⟨(1 - w) * s + w * t, by nlinarith, by nlinarith, ?_⟩
      ext <;> simp only <;> ring
  · intro hx
    exact .mix (.pt (by simp)) (.pt (by simp)) hx

/-- The end moved by `ρ` to the side given by `m`. -/
def lift (p q : Vec ℝ) (m ρ : ℝ) (x : Vec ℝ) : Vec ℝ := ⟨x.x - ρ * m * (q.y - p.y), x.y + ρ * m * (q.x - p.x)⟩

theorem seg_form (s : Segment ℝ) {k : ℝ} (hn : s.tn = (s.tb.sub s.ta).rperp.mult k) (a b : Vec ℝ) (r2 : ℝ) (info : SegHit ℝ)
    (hd : k * turn s.ta s.tb a ≠ 0) : ∃ m, (m = k ∨ m = -k) ∧ 0 < m * turn s.ta s.tb a ∧ ∃ N : Vec ℝ,
    s.segmentQuery a b r2 info =
      if turn a b (lift s.ta s.tb m (s.r + r2) s.ta) * turn a b (lift s.ta s.tb m (s.r + r2) s.tb) ≤ 0 then
        if (m * turn s.ta s.tb a - (s.r + r2)) * (m * turn s.ta s.tb b - (s.r + r2)) < 0 then
          ⟨true, (along a b ((m * turn s.ta s.tb a - (s.r + r2)) / (m * turn s.ta s.tb a - m * turn s.ta s.tb b))).sub (N.mult r2), N,
            (m * turn s.ta s.tb a - (s.r + r2)) / (m * turn s.ta s.tb a - m * turn s.ta s.tb b)⟩
        else info
      else if s.r + r2 ≠ 0 then
        if (circleSegmentQuery s.ta s.r a b r2 (SegHit.blank b)).alpha < (circleSegmentQuery s.tb s.r a b r2 (SegHit.blank b)).alpha then
          circleSegmentQuery s.ta s.r a b r2 (SegHit.blank b) else circleSegmentQuery s.tb s.r a b r2 (SegHit.blank b)
      else info := by
  have hdd : (s.ta.sub a).dot s.tn = k * turn s.ta s.tb a := by
    rw [hn]; simp only [Vec.dot, Vec.sub, Vec.mult, Vec.rperp, turn]; ring
  have hbb : (b.sub a).dot s.tn = k * turn s.ta s.tb a - k * turn s.ta s.tb b := by
    rw [hn]; simp only [Vec.dot, Vec.sub, Vec.mult, Vec.rperp, turn]; ring
  simp only [Segment.segmentQuery, hdd, hbb]
  obtain ⟨ρ, hρ⟩ : ∃ ρ, ρ = s.r + r2 := ⟨_, rfl⟩
  rw [← hρ]
  by_cases h : 0 < k * turn s.ta s.tb a
  · refine ⟨k, .inl rfl, h, s.tn.neg, ?_⟩
    simp only [if_pos h]
    have c : ∀ x : Vec ℝ, (b.sub a).cross (x.add ((s.tn.neg.mult ρ).sub a)) = turn a b (lift s.ta s.tb k ρ x) := by
      intro x; rw [hn]; simp only [Vec.cross, Vec.sub, Vec.add, Vec.mult, Vec.neg, Vec.rperp, turn, lift]; ring
    rw [c, c]
    have e1 : -(k * turn s.ta s.tb a - ρ) * (k * turn s.ta s.tb a - k * turn s.ta s.tb b - (k * turn s.ta s.tb a - ρ)) =
        (k * turn s.ta s.tb a - ρ) * (k * turn s.ta s.tb b - ρ) := by ring
    have e2 : -(k * turn s.ta s.tb a - ρ) / (-(k * turn s.ta s.tb a - ρ) - (k * turn s.ta s.tb a - k * turn s.ta s.tb b - (k * turn s.ta s.tb a - ρ))) =
        (k * turn s.ta s.tb a - ρ) / (k * turn s.ta s.tb a - k * turn s.ta s.tb b) := by
      rw [← neg_div_neg_eq]; congr 1 <;> ring
    rw [e1, e2, lerp_along]
  · have h' : k * turn s.ta s.tb a < 0 := lt_of_le_of_ne (not_lt.1 h) hd
    refine ⟨-k, .inr rfl, by linarith, s.tn, ?_⟩
    simp only [if_neg h]
    have c : ∀ x : Vec ℝ, (b.sub a).cross (x.add ((s.tn.mult ρ).sub a)) = turn a b (lift s.ta s.tb (-k) ρ x) := by
      intro x; rw [hn]; simp only [Vec.cross, Vec.sub, Vec.add, Vec.mult, Vec.rperp, turn, lift]; ring
    rw [c, c]
    have e1 : -(k * turn s.ta s.tb a + ρ) * (k * turn s.ta s.tb a - k * turn s.ta s.tb b - (k * turn s.ta s.tb a + ρ)) =
        (-k * turn s.ta s.tb a - ρ) * (-k * turn s.ta s.tb b - ρ) := by ring
    have e2 : -(k * turn s.ta s.tb a + ρ) / (-(k * turn s.ta s.tb a + ρ) - (k * turn s.ta s.tb a - k * turn s.ta s.tb b - (k * turn s.ta s.tb a + ρ))) =
        (-k * turn s.ta s.tb a - ρ) / (-k * turn s.ta s.tb a - -k * turn s.ta s.tb b) := by
      congr 1 <;> ring
    rw [e1, e2, lerp_along]

theorem seg_sep (p q : Vec ℝ) {x : Vec ℝ} (hx : OnSegment p q x) (y : Vec ℝ) : |turn p q y| ≤ q.distance p * y.distance x := by
  obtain ⟨s, -, -, rfl⟩ := hx
  refine abs_le_of_sq_le_sq ?_ (mul_nonneg (Vec.distance_nonneg _ _) (Vec.distance_nonneg _ _))
  rw [mul_pow, Vec.distance_sq, Vec.distance_sq]
  simp only [turn]
  have : ((q.x - p.x) ^ 2 + (q.y - p.y) ^ 2) * ((y.x - (p.x + s * (q.x - p.x))) ^ 2 + (y.y - (p.y + s * (q.y - p.y))) ^ 2) -
    ((q.x - p.x) * (y.y - p.y) - (q.y - p.y) * (y.x - p.x)) ^ 2 =
    ((q.x - p.x) * (y.x - (p.x + s * (q.x - p.x))) + (q.y - p.y) * (y.y - (p.y + s * (q.y - p.y)))) ^ 2 := by ring
  nlinarith [sq_nonneg ((q.x - p.x) * (y.x - (p.x + s * (q.x - p.x))) + (q.y - p.y) * (y.y - (p.y + s * (q.y - p.y))))]

set_option maxHeartbeats 2000000 in
/-- The class method from a start outside the strip. -/
theorem seg_query (s : Segment ℝ) (hne : s.ta ≠ s.tb) {k : ℝ} (hk : k ≠ 0) (hn : s.tn = (s.tb.sub s.ta).rperp.mult k)
    {a b : Vec ℝ} (hab : a ≠ b) {r2 : ℝ} (hρ : 0 ≤ s.r + r2) (hu : s.r + r2 = 0 ∨ |k| * s.tb.distance s.ta = 1)
    (hout : (s.r + r2) * s.tb.distance s.ta < |turn s.ta s.tb a|) :
    let i := s.segmentQuery a b r2 (SegHit.blank b)
    (i.hit = true → IsLeast (contacts (OnSegment s.ta s.tb) a b (s.r + r2)) i.alpha ∧ (r2 = 0 → i.point = along a b i.alpha)) ∧
    (i.hit = false → i = SegHit.blank b ∧ contacts (OnSegment s.ta s.tb) a b (s.r + r2) ⊆ {1}) := by
  have hL0 : 0 < s.tb.distance s.ta := lt_of_le_of_ne (Vec.distance_nonneg _ _) fun q => hne (Vec.distance_eq_zero.1 q.symm).symm
  have hL2 := Vec.distance_sq s.tb s.ta
  obtain ⟨L, hL⟩ : ∃ L, L = s.tb.distance s.ta := ⟨_, rfl⟩
  have hTne : turn s.ta s.tb a ≠ 0 := by
    intro h0; rw [h0, abs_zero] at hout
    have := mul_nonneg hρ hL0.le
    linarith
  obtain ⟨m, hmk, hmA, N, hform⟩ := seg_form s hn a b r2 (SegHit.blank b) (mul_ne_zero hk hTne)
  have hm2 : m ^ 2 = k ^ 2 := by rcases hmk with rfl | rfl <;> ring
  have hm0 : m ≠ 0 := by rcases hmk with rfl | rfl; exacts [hk, neg_ne_zero.2 hk]
  have hmabs : |m| = |k| := by rcases hmk with rfl | rfl; exacts [rfl, abs_neg _]
  have hseg : ∀ v, v = s.ta ∨ v = s.tb → OnSegment s.ta s.tb v := by
    rintro v (rfl | rfl)
    · exact ⟨0, le_rfl, zero_le_one, by ext <;> simp⟩
    · exact ⟨1, zero_le_one, le_rfl, by ext <;> simp⟩
  obtain ⟨ρ, hρe⟩ : ∃ ρ, ρ = s.r + r2 := ⟨_, rfl⟩
  rw [← hρe] at hρ hu hout hform ⊢
  rw [← hL] at hL0 hL2 hu hout
  obtain ⟨T, hT⟩ : ∃ T : Vec ℝ → ℝ, T = turn s.ta s.tb := ⟨_, rfl⟩
  rw [← hT] at hout hTne hmA hform
  have hTal : ∀ t, T (along a b t) = (1 - t) * T a + t * T b := fun t => by rw [hT]; exact turn_along _ _ _ _ _
  have mL : ρ = 0 ∨ m ^ 2 * L ^ 2 = 1 := by
    refine hu.imp id fun h1 => ?_
    rw [hm2, ← sq_abs k, ← mul_pow, h1, one_pow]
  -- the distance from the line
  have hA : ρ < m * T a := by
    rcases hu with h0 | h1
    · rw [h0]; exact hmA
    · have h2 : |m| * |T a| = m * T a := by rw [← abs_mul, abs_of_pos hmA]
      rw [hmabs] at h2
      have h3 : 0 < |k| := abs_pos.2 hk
      have := mul_lt_mul_of_pos_left hout h3
      have e : |k| * (ρ * L) = ρ := by linear_combination ρ * h1
      linarith
  have far : ∀ t, ρ < m * T (along a b t) → ¬ Thick (OnSegment s.ta s.tb) ρ (along a b t) := by
    rintro t ht ⟨x, hx, hd⟩
    have h1 := seg_sep s.ta s.tb hx (along a b t)
    rw [← hT, ← hL] at h1
    have h2 : m * T (along a b t) ≤ |m| * (L * ρ) := by
      calc m * T (along a b t) ≤ |m * T (along a b t)| := le_abs_self _
        _ = |m| * |T (along a b t)| := abs_mul _ _
        _ ≤ |m| * (L * ρ) := mul_le_mul_of_nonneg_left (h1.trans (mul_le_mul_of_nonneg_left hd hL0.le)) (abs_nonneg _)
    rcases hu with h0 | h1
    · rw [h0] at h2 ht; simp at h2; linarith
    · rw [hmabs] at h2
      have e : |k| * (L * ρ) = ρ := by linear_combination ρ * h1
      linarith
  have outA : ¬ Thick (OnSegment s.ta s.tb) ρ a := by
    have := far 0 (by rw [along_zero]; exact hA)
    rwa [along_zero] at this
  have two := hull_two s.ta s.tb
  -- points on the moved line
  have lifted : ∀ q : Vec ℝ, m * T q = ρ → (ρ = 0 ∨ m ^ 2 * L ^ 2 = 1) → ∃ σ : ℝ, q = ⟨(lift s.ta s.tb m ρ s.ta).x + σ * (s.tb.x - s.ta.x), (lift s.ta s.tb m ρ s.ta).y + σ * (s.tb.y - s.ta.y)⟩ ∧
      σ * L ^ 2 = (s.tb.x - s.ta.x) * (q.x - s.ta.x) + (s.tb.y - s.ta.y) * (q.y - s.ta.y) := by
    intro q hq hmL
    have hTq : T q = ρ * m * L ^ 2 := by
      rcases hmL with h0 | h1
      · rw [h0] at hq ⊢
        have := (mul_eq_zero.1 hq).resolve_left hm0
        rw [this]; ring
      · have : m * (T q - ρ * m * L ^ 2) = 0 := by linear_combination hq - ρ * h1
        have := (mul_eq_zero.1 this).resolve_left hm0
        linarith
    have hTq' : (s.tb.x - s.ta.x) * (q.y - s.ta.y) - (s.tb.y - s.ta.y) * (q.x - s.ta.x) = ρ * m * L ^ 2 := by rw [← hTq, hT]; rfl
    refine ⟨((s.tb.x - s.ta.x) * (q.x - s.ta.x) + (s.tb.y - s.ta.y) * (q.y - s.ta.y)) / L ^ 2, ?_, by rw [div_mul_cancel₀ _ (by positivity)]⟩
    have hLne : L ^ 2 ≠ 0 := by positivity
    ext
    · simp only [lift]
      rw [eq_comm, ← sub_eq_zero]
      field_simp
      linear_combination (s.tb.y - s.ta.y) * hTq' + (s.ta.x - q.x) * hL2
    · simp only [lift]
      rw [eq_comm, ← sub_eq_zero]
      field_simp
      linear_combination -(s.tb.x - s.ta.x) * hTq' + (s.ta.y - q.y) * hL2
  obtain ⟨X, hX⟩ : ∃ X, X = turn a b (lift s.ta s.tb m ρ s.ta) := ⟨_, rfl⟩
  obtain ⟨Y, hY⟩ : ∃ Y, Y = turn a b (lift s.ta s.tb m ρ s.tb) := ⟨_, rfl⟩
  rw [← hX, ← hY] at hform
  have onRay : ∀ σ t : ℝ, along a b t = ⟨(lift s.ta s.tb m ρ s.ta).x + σ * (s.tb.x - s.ta.x), (lift s.ta s.tb m ρ s.ta).y + σ * (s.tb.y - s.ta.y)⟩ →
      (1 - σ) * X + σ * Y = 0 := by
    intro σ t h1
    have h2 : turn a b (along a b t) = 0 := by simp only [turn, along]; ring
    rw [h1] at h2
    rw [hX, hY, ← h2]
    simp only [turn, lift]; ring
  have hXY : m * (Y - X) = m * T a - m * T b := by
    rw [hX, hY, hT]; simp only [turn, lift]; ring
  have hnear : ∀ σ : ℝ, 0 ≤ σ → σ ≤ 1 → Thick (OnSegment s.ta s.tb) ρ
      ⟨(lift s.ta s.tb m ρ s.ta).x + σ * (s.tb.x - s.ta.x), (lift s.ta s.tb m ρ s.ta).y + σ * (s.tb.y - s.ta.y)⟩ := by
    intro σ σ0 σ1
    refine ⟨⟨s.ta.x + σ * (s.tb.x - s.ta.x), s.ta.y + σ * (s.tb.y - s.ta.y)⟩, ⟨σ, σ0, σ1, rfl⟩, ?_⟩
    rw [Vec.distance_le_iff hρ]
    simp only [lift]
    rcases mL with h0 | h1
    · rw [h0]; apply le_of_eq; ring
    · apply le_of_eq; linear_combination ρ ^ 2 * h1 - ρ ^ 2 * m ^ 2 * hL2
  have ends : ∀ v, v = s.ta ∨ v = s.tb → ρ < a.distance v := by
    intro v hv
    by_contra hn
    exact outA ⟨v, hseg v hv, not_lt.1 hn⟩
  -- the first contact is on the moved line or at an end
  have firstC : ∀ t0, IsLeast (contacts (OnSegment s.ta s.tb) a b ρ) t0 → X * Y ≤ 0 ∨ ∃ v, (v = s.ta ∨ v = s.tb) ∧ (along a b t0).distance v ≤ ρ := by
    intro t0 ht
    rw [← two] at ht
    have hpos : 0 < t0 := first_pos (by rw [two]; exact outA) ht
    obtain ⟨p, hp⟩ : ∃ p, p = along a b t0 := ⟨_, rfl⟩
    have tight : ∀ x, OnSegment s.ta s.tb x → ρ ≤ p.distance x := fun x hx => by
      rw [hp]; exact first_tight hρ ht hpos (by rw [two]; exact hx)
    obtain ⟨x, hx, hdx⟩ := ht.1.2.2
    rw [two] at hx
    have hsep := seg_sep s.ta s.tb hx p
    obtain ⟨w, w0, w1, hw⟩ := hx
    rw [← hp] at hdx
    have hdx' := hdx
    rw [Vec.distance_le_iff hρ, hw] at hdx
    simp only at hdx
    by_cases c1 : (s.tb.x - s.ta.x) * (p.x - s.ta.x) + (s.tb.y - s.ta.y) * (p.y - s.ta.y) ≤ 0
    · right
      refine ⟨s.ta, .inl rfl, ?_⟩
      rw [← hp, Vec.distance_le_iff hρ]
      nlinarith [mul_nonneg w0 (neg_nonneg.2 c1), mul_nonneg (mul_nonneg w0 w0) (add_nonneg (sq_nonneg (s.tb.x - s.ta.x)) (sq_nonneg (s.tb.y - s.ta.y)))]
    by_cases c2 : 0 ≤ (s.tb.x - s.ta.x) * (p.x - s.tb.x) + (s.tb.y - s.ta.y) * (p.y - s.tb.y)
    · right
      refine ⟨s.tb, .inr rfl, ?_⟩
      rw [← hp, Vec.distance_le_iff hρ]
      have w1' := sub_nonneg.2 w1
      nlinarith [mul_nonneg w1' c2, mul_nonneg (mul_nonneg w1' w1') (add_nonneg (sq_nonneg (s.tb.x - s.ta.x)) (sq_nonneg (s.tb.y - s.ta.y)))]
    left
    push Not at c1 c2
    have beside : ∀ q : Vec ℝ, 0 ≤ (s.tb.x - s.ta.x) * (q.x - s.ta.x) + (s.tb.y - s.ta.y) * (q.y - s.ta.y) →
        (s.tb.x - s.ta.x) * (q.x - s.tb.x) + (s.tb.y - s.ta.y) * (q.y - s.tb.y) ≤ 0 → ∃ y, OnSegment s.ta s.tb y ∧ q.distance y * L = |T q| := by
      intro q q1 q2
      obtain ⟨σ, hσ⟩ : ∃ σ, σ = ((s.tb.x - s.ta.x) * (q.x - s.ta.x) + (s.tb.y - s.ta.y) * (q.y - s.ta.y)) / L ^ 2 := ⟨_, rfl⟩
      have σ0 : 0 ≤ σ := by rw [hσ]; exact div_nonneg q1 (by positivity)
      have σ1 : σ ≤ 1 := by rw [hσ, div_le_one (by positivity), hL2]; nlinarith
      have hσL : σ * L ^ 2 = (s.tb.x - s.ta.x) * (q.x - s.ta.x) + (s.tb.y - s.ta.y) * (q.y - s.ta.y) := by
        rw [hσ, div_mul_cancel₀ _ (by positivity)]
      refine ⟨⟨s.ta.x + σ * (s.tb.x - s.ta.x), s.ta.y + σ * (s.tb.y - s.ta.y)⟩, ⟨σ, σ0, σ1, rfl⟩, ?_⟩
      rw [← abs_of_nonneg (mul_nonneg (Vec.distance_nonneg _ _) hL0.le), ← sq_eq_sq_iff_abs_eq_abs, mul_pow, Vec.distance_sq, hT]
      simp only [turn]
      have e1 : ((q.x - (s.ta.x + σ * (s.tb.x - s.ta.x))) ^ 2 + (q.y - (s.ta.y + σ * (s.tb.y - s.ta.y))) ^ 2) =
        (q.x - s.ta.x) ^ 2 + (q.y - s.ta.y) ^ 2 - 2 * σ * (σ * L ^ 2) + σ ^ 2 * L ^ 2 := by rw [hσL, hL2]; ring
      have e2 : ((q.x - s.ta.x) ^ 2 + (q.y - s.ta.y) ^ 2 - 2 * σ * (σ * L ^ 2) + σ ^ 2 * L ^ 2) * L ^ 2 =
        ((q.x - s.ta.x) ^ 2 + (q.y - s.ta.y) ^ 2) * L ^ 2 - (σ * L ^ 2) ^ 2 := by ring
      rw [e1, e2, hσL, hL2]; ring
    rw [← hT, ← hL] at hsep
    have hTp : |T p| = ρ * L := by
      obtain ⟨y, hy, hyL⟩ := beside p c1.le c2.le
      have t1 := tight y hy
      apply le_antisymm
      · have := mul_le_mul_of_nonneg_left hdx' hL0.le
        linarith
      · rw [← hyL]; exact mul_le_mul_of_nonneg_right t1 hL0.le
    have hmT : m * T p = ρ := by
      rcases mL with h0 | h1
      · rw [h0, zero_mul, abs_eq_zero] at hTp
        rw [hTp, h0, mul_zero]
      have hmabs' : |m| * L = 1 := by
        have : (|m| * L) ^ 2 = 1 ^ 2 := by rw [mul_pow, sq_abs, h1, one_pow]
        exact (pow_left_inj₀ (by positivity) zero_le_one two_ne_zero).1 this
      have habs : |m * T p| = ρ := by rw [abs_mul, hTp]; linear_combination ρ * hmabs'
      by_contra hne'
      have hneg : m * T p = -ρ := by
        rcases abs_cases (m * T p) with ⟨h2, -⟩ | ⟨h2, -⟩
        · exact absurd (h2.symm.trans habs) hne'
        · linarith
      have hρ0 : 0 < ρ := by
        refine lt_of_le_of_ne hρ fun h0 => hne' ?_
        rw [← h0] at hneg ⊢; linarith
      have ev : ∀ᶠ t in nhds t0, 0 ≤ (s.tb.x - s.ta.x) * ((along a b t).x - s.ta.x) + (s.tb.y - s.ta.y) * ((along a b t).y - s.ta.y) ∧
          (s.tb.x - s.ta.x) * ((along a b t).x - s.tb.x) + (s.tb.y - s.ta.y) * ((along a b t).y - s.tb.y) ≤ 0 ∧ m * T (along a b t) ≤ ρ ∧ 0 < t := by
        have g1 : Continuous fun t : ℝ => (s.tb.x - s.ta.x) * ((along a b t).x - s.ta.x) + (s.tb.y - s.ta.y) * ((along a b t).y - s.ta.y) := by
          simp only [along]; fun_prop
        have g2 : Continuous fun t : ℝ => (s.tb.x - s.ta.x) * ((along a b t).x - s.tb.x) + (s.tb.y - s.ta.y) * ((along a b t).y - s.tb.y) := by
          simp only [along]; fun_prop
        have g3 : Continuous fun t : ℝ => m * T (along a b t) := by
          rw [hT]; simp only [along, turn]; fun_prop
        have c3 : m * T p < ρ := by rw [hneg]; linarith
        rw [hp] at c1 c2 c3
        filter_upwards [g1.continuousAt.eventually (lt_mem_nhds c1), g2.continuousAt.eventually (gt_mem_nhds c2),
          g3.continuousAt.eventually (gt_mem_nhds c3), lt_mem_nhds hpos] with t k1 k2 k3 k4
        exact ⟨k1.le, k2.le, k3.le, k4⟩
      obtain ⟨t, ⟨k1, k2, k3, k4⟩, htt⟩ := (Filter.Eventually.and (ev.filter_mono nhdsWithin_le_nhds) (self_mem_nhdsWithin : Iio t0 ∈ nhdsWithin t0 (Iio t0))).exists
      have htt : t < t0 := htt
      obtain ⟨y, hy, hyL⟩ := beside _ k1 k2
      have k5 : -ρ ≤ m * T (along a b t) := by
        rw [hp, hTal] at hneg
        rw [hTal]
        have h3 : t0 * (m * ((1 - t) * T a + t * T b)) = (t0 - t) * (m * T a) - t * ρ := by linear_combination t * hneg
        have h4 : t0 * -ρ ≤ (t0 - t) * (m * T a) - t * ρ := by nlinarith
        rw [← h3] at h4
        exact le_of_mul_le_mul_left h4 hpos
      have hc : t ∈ contacts (HullOf [s.ta, s.tb]) a b ρ := by
        refine ⟨k4.le, by linarith [ht.1.2.1], y, by rw [two]; exact hy, ?_⟩
        have h5 : |m * T (along a b t)| ≤ ρ := abs_le.2 ⟨k5, k3⟩
        rw [abs_mul, ← hyL] at h5
        have h6 : |m| * ((along a b t).distance y * L) = (along a b t).distance y := by linear_combination (along a b t).distance y * hmabs'
        linarith
      have := ht.2 hc
      linarith
    obtain ⟨σ, hq, hσ⟩ := lifted p hmT mL
    have hσ0 : 0 < σ := by
      by_contra hn
      have := mul_nonpos_of_nonpos_of_nonneg (not_lt.1 hn) (sq_nonneg L)
      linarith
    have hσ1 : σ < 1 := by
      by_contra hn
      have := mul_le_mul_of_nonneg_right (not_lt.1 hn) (sq_nonneg L)
      nlinarith
    have hr := onRay σ t0 (by rw [← hp]; exact hq)
    have hy : σ * Y = -((1 - σ) * X) := by linarith
    have : σ * (X * Y) = -((1 - σ) * X ^ 2) := by linear_combination X * hy
    have h2 : σ * (X * Y) ≤ 0 := by rw [this]; have := mul_nonneg (sub_nonneg.2 hσ1.le) (sq_nonneg X); linarith
    exact nonpos_of_mul_nonpos_right h2 hσ0
  rw [hform]
  obtain ⟨A, hAe⟩ : ∃ A, A = m * T a := ⟨_, rfl⟩
  obtain ⟨B, hBe⟩ : ∃ B, B = m * T b := ⟨_, rfl⟩
  have hAB : ∀ t, m * T (along a b t) = (1 - t) * A + t * B := fun t => by rw [hTal, hAe, hBe]; ring
  rw [← hAe, ← hBe] at hXY
  rw [← hAe] at hA
  simp only [← hAe, ← hBe]
  by_cases hc1 : X * Y ≤ 0
  · simp only [if_pos hc1]
    by_cases hc2 : (A - ρ) * (B - ρ) < 0
    · simp only [if_pos hc2]
      have hB : B < ρ := by
        by_contra hn
        have := mul_nonneg (sub_nonneg.2 hA.le) (sub_nonneg.2 (not_lt.1 hn))
        linarith
      have hd : 0 < A - B := by linarith
      obtain ⟨t, ht⟩ : ∃ t, t = (A - ρ) / (A - B) := ⟨_, rfl⟩
      have htm : t * (A - B) = A - ρ := by rw [ht, div_mul_cancel₀ _ hd.ne']
      rw [← ht]
      have t0 : 0 < t := by rw [ht]; exact div_pos (by linarith) hd
      have t1 : t ≤ 1 := by rw [ht, div_le_one hd]; linarith
      refine ⟨fun _ => ⟨⟨⟨t0.le, t1, ?_⟩, ?_⟩, ?_⟩, fun hh => by cases hh⟩
      · obtain ⟨σ, hq, -⟩ := lifted (along a b t) (by rw [hAB]; linear_combination -htm) mL
        have hr := onRay σ t hq
        rw [hq]
        have hD : Y - X ≠ 0 := by
          intro h0; rw [h0, mul_zero] at hXY; linarith
        have hXe : X = -(σ * (Y - X)) := by linarith
        have hYe : Y = (1 - σ) * (Y - X) := by linarith
        have hp : X * Y = -(σ * (1 - σ)) * (Y - X) ^ 2 := by
          calc X * Y = -(σ * (Y - X)) * ((1 - σ) * (Y - X)) := by rw [← hXe, ← hYe]
            _ = _ := by ring
        have hD2 : 0 < (Y - X) ^ 2 := by positivity
        have h3 : 0 ≤ σ * (1 - σ) := by
          by_contra hn
          have := mul_pos (neg_pos.2 (not_le.1 hn)) hD2
          linarith
        have σ0 : 0 ≤ σ := by nlinarith
        have σ1 : σ ≤ 1 := by nlinarith
        exact hnear σ σ0 σ1
      · rintro t' ⟨k0, k1, k2⟩
        by_contra hlt
        push Not at hlt
        refine far t' ?_ k2
        rw [hAB]
        nlinarith [mul_pos (sub_pos.2 hlt) hd]
      · rintro rfl
        ext <;> simp [Vec.sub, Vec.mult]
    · simp only [if_neg hc2]
      refine ⟨fun hh => (by cases hh), fun _ => ⟨trivial, ?_⟩⟩
      have hB : ρ ≤ B := by
        by_contra hn
        exact hc2 (mul_neg_of_pos_of_neg (by linarith) (by linarith))
      rintro t ⟨k0, k1, k2⟩
      by_contra hne1
      have hlt : t < 1 := lt_of_le_of_ne k1 hne1
      refine far t ?_ k2
      rw [hAB]
      nlinarith [mul_pos (sub_pos.2 hlt) (sub_pos.2 hA), mul_nonneg k0 (sub_nonneg.2 hB)]
  · simp only [if_neg hc1]
    by_cases h0 : ρ = 0
    · simp only [h0, ne_eq, not_true_eq_false, if_false]
      refine ⟨fun hh => (by cases hh), fun _ => ⟨trivial, ?_⟩⟩
      intro t ht
      exfalso
      rw [← h0] at ht
      obtain ⟨t0, ht0⟩ := contacts_least (l := [s.ta, s.tb]) hρ ⟨t, by rw [two]; exact ht⟩
      rw [two] at ht0
      rcases firstC t0 ht0 with h | ⟨v, hv, hd⟩
      · exact hc1 h
      · rw [h0] at hd
        have hpv := Vec.distance_eq_zero.1 (le_antisymm hd (Vec.distance_nonneg _ _))
        have hz : turn a b v = 0 := by rw [← hpv]; simp only [turn, along]; ring
        have hl : ∀ x, lift s.ta s.tb m ρ x = x := by intro x; rw [h0]; ext <;> simp [lift]
        rw [hl] at hX hY
        apply hc1
        rcases hv with rfl | rfl
        · rw [hX, hz, zero_mul]
        · rw [hY, hz, mul_zero]
    · simp only [ne_eq, h0, not_false_eq_true, if_true]
      have circ : ∀ v, v = s.ta ∨ v = s.tb → (circleSegmentQuery v s.r a b r2 (SegHit.blank b) = SegHit.blank b ∧ (∀ t, 0 ≤ t → t ≤ 1 → ρ < (along a b t).distance v)) ∨
          ((circleSegmentQuery v s.r a b r2 (SegHit.blank b)).hit = true ∧ (circleSegmentQuery v s.r a b r2 (SegHit.blank b)).alpha ∈ contacts (OnSegment s.ta s.tb) a b ρ ∧
            (∀ t, 0 ≤ t → (along a b t).distance v ≤ ρ → (circleSegmentQuery v s.r a b r2 (SegHit.blank b)).alpha ≤ t) ∧
            (r2 = 0 → (circleSegmentQuery v s.r a b r2 (SegHit.blank b)).point = along a b (circleSegmentQuery v s.r a b r2 (SegHit.blank b)).alpha)) := by
        intro v hvl
        rcases circleSegmentQuery_first v s.r a b r2 (by rw [← hρe]; exact hρ) hab (by rw [← hρe]; exact ends v hvl) (SegHit.blank b) with ⟨c1, c2⟩ | ⟨c1, c2, c3, c4, c5, c6, c7⟩
        · exact .inl ⟨c1, fun t t0 t1 => by rw [hρe]; exact c2 t t0 t1⟩
        · refine .inr ⟨c1, ⟨c2, c3, v, hseg v hvl, by rw [c4, hρe]⟩, fun t t0 ht => c5 t t0 (by rw [← hρe]; exact ht), ?_⟩
          rintro rfl
          rw [c7]; ext <;> simp [Vec.sub, Vec.mult]
      obtain ⟨i, hi⟩ : ∃ i, i = (if (circleSegmentQuery s.ta s.r a b r2 (SegHit.blank b)).alpha < (circleSegmentQuery s.tb s.r a b r2 (SegHit.blank b)).alpha then
        circleSegmentQuery s.ta s.r a b r2 (SegHit.blank b) else circleSegmentQuery s.tb s.r a b r2 (SegHit.blank b)) := ⟨_, rfl⟩
      rw [← hi]
      have hiv : ∃ v, (v = s.ta ∨ v = s.tb) ∧ i = circleSegmentQuery v s.r a b r2 (SegHit.blank b) := by
        rw [hi]; split
        · exact ⟨_, .inl rfl, rfl⟩
        · exact ⟨_, .inr rfl, rfl⟩
      have hle : ∀ v, v = s.ta ∨ v = s.tb → i.alpha ≤ (circleSegmentQuery v s.r a b r2 (SegHit.blank b)).alpha := by
        rw [hi]
        rintro v (rfl | rfl)
        · split
          · exact le_rfl
          · next h => exact not_lt.1 h
        · split
          · next h => exact h.le
          · exact le_rfl
      have found : ∀ t0, IsLeast (contacts (OnSegment s.ta s.tb) a b ρ) t0 → i.alpha ≤ t0 := by
        intro t0 ht0
        rcases firstC t0 ht0 with h | ⟨v, hv, hd⟩
        · exact absurd h hc1
        · rcases circ v hv with ⟨-, c⟩ | ⟨-, -, c, -⟩
          · exact absurd hd (not_le.2 (c t0 ht0.1.1 ht0.1.2.1))
          · exact (hle v hv).trans (c t0 ht0.1.1 hd)
      have least : ∀ t, t ∈ contacts (OnSegment s.ta s.tb) a b ρ → ∃ t0, IsLeast (contacts (OnSegment s.ta s.tb) a b ρ) t0 := by
        intro t ht
        have := contacts_least (l := [s.ta, s.tb]) hρ ⟨t, by rw [two]; exact ht⟩
        rwa [two] at this
      obtain ⟨v, hv, hiv⟩ := hiv
      constructor
      · intro hh
        rcases circ v hv with ⟨c, -⟩ | ⟨-, c, -, c'⟩
        · rw [hiv, c] at hh; cases hh
        · rw [← hiv] at c c'
          obtain ⟨t0, ht0⟩ := least _ c
          have : i.alpha = t0 := le_antisymm (found t0 ht0) (ht0.2 c)
          exact ⟨this ▸ ht0, c'⟩
      · intro hh
        have hb : i = SegHit.blank b := by
          rcases circ v hv with ⟨c, -⟩ | ⟨c, -⟩
          · rw [hiv, c]
          · rw [hiv, c] at hh; cases hh
        refine ⟨hb, ?_⟩
        intro t ht
        obtain ⟨t0, ht0⟩ := least _ ht
        have h1 := found t0 ht0
        rw [hb] at h1
        have h2 : (1 : ℝ) ≤ t0 := h1
        exact le_antisymm ht.2.1 (h2.trans (ht0.2 ht))

end CP
