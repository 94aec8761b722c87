import Verif.Props.Collide
import Verif.Props.Polygon
import Verif.Spec.Facing

/-! # Every overlap gives a contact (for C32) -/

namespace CP
open GoFloat Coll

theorem clamp01_real (x : ℝ) : clamp01 x = max 0 (min x 1) := rfl

theorem clamp01_of_le {x : ℝ} (h : x ≤ 0) : clamp01 x = 0 := by
  rw [clamp01_real, min_eq_left (h.trans zero_le_one), max_eq_left h]

theorem clamp01_of_ge {x : ℝ} (h : 1 ≤ x) : clamp01 x = 1 := by
  rw [clamp01_real, min_eq_right h, max_eq_right zero_le_one]

theorem clamp01_of_mem {x : ℝ} (h0 : 0 ≤ x) (h1 : x ≤ 1) : clamp01 x = x := by
  rw [clamp01_real, min_eq_left h1, max_eq_right h0]

theorem clamp01_bounds (x : ℝ) : 0 ≤ clamp01 x ∧ clamp01 x ≤ 1 :=
  ⟨by rw [clamp01_real]; exact le_max_left _ _, by rw [clamp01_real]; exact max_le zero_le_one (min_le_right _ _)⟩

theorem clamp_close_sub (x : ℝ) {w ε : ℝ} (hε : 0 < ε) (hw : ε < w) : |clamp01 (x / (w - ε)) - clamp01 (x / w)| ≤ ε / (w - ε) := by
  have h1 : 0 < w - ε := by linarith
  have h2 : 0 < w := by linarith
  have hpos : 0 ≤ ε / (w - ε) := by positivity
  by_cases hx : x ≤ 0
  · rw [clamp01_of_le (div_nonpos_of_nonpos_of_nonneg hx h1.le), clamp01_of_le (div_nonpos_of_nonpos_of_nonneg hx h2.le)]
    simpa using hpos
  push Not at hx
  by_cases hx2 : w ≤ x
  · rw [clamp01_of_ge ((one_le_div h1).2 (by linarith)), clamp01_of_ge ((one_le_div h2).2 hx2)]
    simpa using hpos
  push Not at hx2
  rw [clamp01_of_mem (div_nonneg hx.le h2.le) ((div_le_one h2).2 hx2.le)]
  have hle : x / w ≤ x / (w - ε) := div_le_div_of_nonneg_left hx.le h1 (by linarith)
  have hc : x / w ≤ clamp01 (x / (w - ε)) := by
    rw [clamp01_real]
    exact le_max_of_le_right (le_min hle ((div_le_one h2).2 hx2.le))
  rw [abs_of_nonneg (by linarith)]
  have hc2 : clamp01 (x / (w - ε)) ≤ x / (w - ε) := by
    rw [clamp01_real]; exact max_le (by positivity) (min_le_left _ _)
  have : x / (w - ε) - x / w ≤ ε / (w - ε) := by
    rw [div_sub_div _ _ h1.ne' h2.ne', div_le_div_iff₀ (by positivity) h1]
    nlinarith [mul_pos hε h1]
  linarith

theorem clamp_close_add (x : ℝ) {w ε : ℝ} (hε : 0 < ε) (hw : 0 < w) : |clamp01 (x / (w + ε)) - clamp01 (x / w)| ≤ ε / (w + ε) := by
  have h1 : 0 < w + ε := by linarith
  have hpos : 0 ≤ ε / (w + ε) := by positivity
  by_cases hx : x ≤ 0
  · rw [clamp01_of_le (div_nonpos_of_nonpos_of_nonneg hx h1.le), clamp01_of_le (div_nonpos_of_nonpos_of_nonneg hx hw.le)]
    simpa using hpos
  push Not at hx
  have hle : x / (w + ε) ≤ x / w := div_le_div_of_nonneg_left hx.le hw (by linarith)
  have hb := clamp01_bounds (x / (w + ε))
  have hb' := clamp01_bounds (x / w)
  have hmono : clamp01 (x / (w + ε)) ≤ clamp01 (x / w) := by
    rw [clamp01_real, clamp01_real]; exact max_le_max le_rfl (min_le_min hle le_rfl)
  rw [abs_sub_comm, abs_of_nonneg (by linarith)]
  by_cases hx2 : w ≤ x
  · have : w / (w + ε) ≤ clamp01 (x / (w + ε)) := by
      rw [clamp01_real]
      exact le_max_of_le_right (le_min (div_le_div_of_nonneg_right hx2 h1.le) ((div_le_one h1).2 (by linarith)))
    have e : 1 - w / (w + ε) = ε / (w + ε) := by field_simp; ring
    linarith
  · push Not at hx2
    rw [clamp01_of_mem (div_nonneg hx.le hw.le) ((div_le_one hw).2 hx2.le),
      clamp01_of_mem (div_nonneg hx.le h1.le) ((div_le_one h1).2 (by linarith))]
    rw [div_sub_div _ _ hw.ne' h1.ne', div_le_div_iff₀ (by positivity) h1]
    nlinarith [mul_pos hε h1]

theorem tiny_pos : 0 < tiny := by unfold tiny; positivity

/-- The two pairs of points: one of them is at least as near as two given points of the edges over each other. -/
theorem contactPoints_found (e1 e2 : Edge ℝ) (c : Closest ℝ) (i : Info ℝ) (hnil : i.contacts = []) {t s : ℝ} (t0 : 0 ≤ t) (t1 : t ≤ 1)
    (s0 : 0 ≤ s) (s1 : s ≤ 1) (hcr : (e1.a.lerp e1.b t).cross c.n = (e2.a.lerp e2.b s).cross c.n)
    (hw1 : tiny < widthAlong e1.a e1.b c.n) (hw2 : 0 < widthAlong e2.a e2.b c.n.neg) (hd : c.d ≤ e1.r + e2.r)
    (hov : c.n.dot ((e2.a.lerp e2.b s).sub (e1.a.lerp e1.b t)) + tiny * (riseAlong e1.a e1.b c.n / (widthAlong e1.a e1.b c.n - tiny) +
      riseAlong e2.a e2.b c.n / (widthAlong e2.a e2.b c.n.neg + tiny)) ≤ (e1.r + e2.r) * c.n.dot c.n) :
    ∃ j, contactPoints e1 e2 c i = some j ∧ j.contacts ≠ [] := by
  obtain ⟨A1, hA1⟩ : ∃ x, x = e1.a.cross c.n := ⟨_, rfl⟩
  obtain ⟨B1, hB1⟩ : ∃ x, x = e1.b.cross c.n := ⟨_, rfl⟩
  obtain ⟨A2, hA2⟩ : ∃ x, x = e2.a.cross c.n := ⟨_, rfl⟩
  obtain ⟨B2, hB2⟩ : ∃ x, x = e2.b.cross c.n := ⟨_, rfl⟩
  obtain ⟨w1, hw1e⟩ : ∃ x, x = widthAlong e1.a e1.b c.n := ⟨_, rfl⟩
  obtain ⟨w2, hw2e⟩ : ∃ x, x = widthAlong e2.a e2.b c.n.neg := ⟨_, rfl⟩
  have ew1 : w1 = A1 - B1 := by rw [hw1e, hA1, hB1]; simp only [widthAlong, Vec.cross, Vec.dot, Vec.rperp, Vec.sub]; ring
  have ew2 : w2 = B2 - A2 := by rw [hw2e, hA2, hB2]; simp only [widthAlong, Vec.cross, Vec.dot, Vec.rperp, Vec.sub, Vec.neg]; ring
  rw [← hw1e] at hw1 hov
  rw [← hw2e] at hw2 hov
  have hw10 : 0 < w1 := tiny_pos.trans hw1
  -- heights
  obtain ⟨g1, hg1⟩ : ∃ x, x = e1.a.dot c.n := ⟨_, rfl⟩
  obtain ⟨m1, hm1⟩ : ∃ x, x = (e1.b.sub e1.a).dot c.n := ⟨_, rfl⟩
  obtain ⟨g2, hg2⟩ : ∃ x, x = e2.a.dot c.n := ⟨_, rfl⟩
  obtain ⟨m2, hm2⟩ : ∃ x, x = (e2.b.sub e2.a).dot c.n := ⟨_, rfl⟩
  have hr1 : riseAlong e1.a e1.b c.n = |m1| := by rw [hm1]; rfl
  have hr2 : riseAlong e2.a e2.b c.n = |m2| := by rw [hm2]; rfl
  have hval : ∀ x y : ℝ, ((((c.n.mult (-e2.r)).add (e2.a.lerp e2.b y)).sub ((c.n.mult e1.r).add (e1.a.lerp e1.b x))).dot c.n) =
      (g2 + y * m2) - (g1 + x * m1) - (e1.r + e2.r) * c.n.dot c.n := by
    intro x y; rw [hg1, hg2, hm1, hm2]; simp only [Vec.dot, Vec.sub, Vec.add, Vec.mult, Vec.lerp]; ring
  have hgt : c.n.dot ((e2.a.lerp e2.b s).sub (e1.a.lerp e1.b t)) = (g2 + s * m2) - (g1 + t * m1) := by
    rw [hg1, hg2, hm1, hm2]; simp only [Vec.dot, Vec.sub, Vec.add, Vec.mult, Vec.lerp]; ring
  rw [hgt, hr1, hr2] at hov
  have hγ : A1 - t * w1 = A2 + s * w2 := by
    rw [ew1, ew2, hA1, hB1, hA2, hB2]
    simp only [Vec.cross, Vec.lerp, Vec.add, Vec.mult] at hcr ⊢
    linear_combination hcr
  -- the four parameters of the code
  have q1 : ∀ x : ℝ, (x - A1) * (1 / (B1 - A1 + tiny)) = (A1 - x) / (w1 - tiny) := by
    intro x
    have : B1 - A1 + tiny = -(w1 - tiny) := by rw [ew1]; ring
    rw [this, mul_one_div, div_neg, ← neg_div]; congr 1; ring
  have q2 : ∀ x : ℝ, (x - A2) * (1 / (B2 - A2 + tiny)) = (x - A2) / (w2 + tiny) := by
    intro x; rw [mul_one_div, ew2]
  have htiny : (lit (1 / 10 ^ 15) : ℝ) = tiny := by rw [lit_real]; unfold tiny; push_cast; rfl
  -- the exact ones
  have b1 : B1 ≤ A1 - t * w1 := by nlinarith
  have b2 : A1 - t * w1 ≤ A1 := by nlinarith
  have b3 : A2 ≤ A1 - t * w1 := by rw [hγ]; nlinarith
  have b4 : A1 - t * w1 ≤ B2 := by rw [hγ]; nlinarith
  obtain ⟨γ, hγe⟩ : ∃ γ, γ = A1 - t * w1 := ⟨_, rfl⟩
  rw [← hγe] at b1 b2 b3 b4
  obtain ⟨hi, hhi⟩ : ∃ hi, hi = min B2 A1 := ⟨_, rfl⟩
  obtain ⟨lo, hlo⟩ : ∃ lo, lo = max A2 B1 := ⟨_, rfl⟩
  have c1 : clamp01 ((A1 - B2) / w1) = (A1 - hi) / w1 := by
    rw [hhi]
    by_cases h : B2 ≤ A1
    · rw [min_eq_left h, clamp01_of_mem (div_nonneg (by linarith) hw10.le) ((div_le_one hw10).2 (by linarith))]
    · push Not at h
      rw [min_eq_right h.le, clamp01_of_le (div_nonpos_of_nonpos_of_nonneg (by linarith) hw10.le)]; simp
  have c2 : clamp01 ((A1 - A2) / w2) = (hi - A2) / w2 := by
    rw [hhi]
    by_cases h : B2 ≤ A1
    · rw [min_eq_left h, clamp01_of_ge ((one_le_div hw2).2 (by linarith)), ← ew2, div_self hw2.ne']
    · push Not at h
      rw [min_eq_right h.le, clamp01_of_mem (div_nonneg (by linarith) hw2.le) ((div_le_one hw2).2 (by linarith))]
  have c3 : clamp01 ((A1 - A2) / w1) = (A1 - lo) / w1 := by
    rw [hlo]
    by_cases h : B1 ≤ A2
    · rw [max_eq_left h, clamp01_of_mem (div_nonneg (by linarith) hw10.le) ((div_le_one hw10).2 (by linarith))]
    · push Not at h
      rw [max_eq_right h.le, clamp01_of_ge ((one_le_div hw10).2 (by linarith)), ← ew1, div_self hw10.ne']
  have c4 : clamp01 ((B1 - A2) / w2) = (lo - A2) / w2 := by
    rw [hlo]
    by_cases h : B1 ≤ A2
    · rw [max_eq_left h, clamp01_of_le (div_nonpos_of_nonpos_of_nonneg (by linarith) hw2.le)]; simp
    · push Not at h
      rw [max_eq_right h.le, clamp01_of_mem (div_nonneg (by linarith) hw2.le) ((div_le_one hw2).2 (by linarith))]
  -- the height is affine over the overlap
  have hlohi : lo ≤ γ ∧ γ ≤ hi := ⟨by rw [hlo]; exact max_le b3 b1, by rw [hhi]; exact le_min b4 b2⟩
  obtain ⟨f, hf⟩ : ∃ f : ℝ → ℝ, f = fun x => (g2 + (x - A2) / w2 * m2) - (g1 + (A1 - x) / w1 * m1) := ⟨_, rfl⟩
  have hfγ : f γ = (g2 + s * m2) - (g1 + t * m1) := by
    have e1 : (γ - A2) / w2 = s := by rw [div_eq_iff hw2.ne', hγe, hγ]; ring
    have e2 : (A1 - γ) / w1 = t := by rw [div_eq_iff hw10.ne', hγe]; ring
    rw [hf]; simp only [e1, e2]
  have hmin : f hi ≤ f γ ∨ f lo ≤ f γ := by
    by_contra hno
    push Not at hno
    have hfa : ∀ x, f x = f 0 + x * (m2 / w2 + m1 / w1) := by
      intro x; rw [hf]; simp only; field_simp; ring
    rw [hfa hi, hfa γ, hfa lo] at hno
    have k1 : 0 < (hi - γ) * (m2 / w2 + m1 / w1) := by linarith [hno.1]
    have k2 : (γ - lo) * (m2 / w2 + m1 / w1) < 0 := by linarith [hno.2]
    have k3 : 0 < m2 / w2 + m1 / w1 := by
      by_contra hn
      have := mul_nonpos_of_nonneg_of_nonpos (sub_nonneg.2 hlohi.2) (not_lt.1 hn)
      linarith
    have := mul_nonneg (sub_nonneg.2 hlohi.1) k3.le
    linarith
  have near : ∀ (x y X Y F : ℝ), |x - X| ≤ tiny / (w1 - tiny) → |y - Y| ≤ tiny / (w2 + tiny) → (g2 + Y * m2) - (g1 + X * m1) = F → F ≤ f γ →
      (g2 + y * m2) - (g1 + x * m1) - (e1.r + e2.r) * c.n.dot c.n ≤ 0 := by
    intro x y X Y F hx hy hF hle
    have h1 : (y - Y) * m2 ≤ tiny / (w2 + tiny) * |m2| := by
      calc (y - Y) * m2 ≤ |(y - Y) * m2| := le_abs_self _
        _ = |y - Y| * |m2| := abs_mul _ _
        _ ≤ _ := mul_le_mul_of_nonneg_right hy (abs_nonneg _)
    have h2 : -((x - X) * m1) ≤ tiny / (w1 - tiny) * |m1| := by
      calc -((x - X) * m1) ≤ |(x - X) * m1| := neg_le_abs _
        _ = |x - X| * |m1| := abs_mul _ _
        _ ≤ _ := mul_le_mul_of_nonneg_right hx (abs_nonneg _)
    have e1 : tiny / (w2 + tiny) * |m2| = tiny * (|m2| / (w2 + tiny)) := by ring
    have e2 : tiny / (w1 - tiny) * |m1| = tiny * (|m1| / (w1 - tiny)) := by ring
    rw [e1] at h1
    rw [e2] at h2
    rw [← hfγ] at hov
    linarith
  have P1 := clamp_close_sub (A1 - B2) tiny_pos hw1
  have P2 := clamp_close_add (A1 - A2) tiny_pos hw2
  have P3 := clamp_close_sub (A1 - A2) tiny_pos hw1
  have P4 := clamp_close_add (B1 - A2) tiny_pos hw2
  rw [c1] at P1
  rw [c2] at P2
  rw [c3] at P3
  rw [c4] at P4
  unfold contactPoints
  simp only [htiny, ← hA1, ← hB1, ← hA2, ← hB2, q1, q2, if_neg (not_lt.2 hd), hval]
  by_cases hfirst : g2 + clamp01 ((A1 - A2) / (w2 + tiny)) * m2 - (g1 + clamp01 ((A1 - B2) / (w1 - tiny)) * m1) - (e1.r + e2.r) * c.n.dot c.n ≤ 0
  · rw [if_pos hfirst, push_some (by simp [hnil])]
    simp only [Option.bind_eq_bind, Option.bind_some]
    split
    · rw [push_some (by simp [hnil])]; exact ⟨_, rfl, by simp [hnil]⟩
    · exact ⟨_, rfl, by simp [hnil]⟩
  · have hsecond : g2 + clamp01 ((B1 - A2) / (w2 + tiny)) * m2 - (g1 + clamp01 ((A1 - A2) / (w1 - tiny)) * m1) - (e1.r + e2.r) * c.n.dot c.n ≤ 0 := by
      rcases hmin with h | h
      · exact absurd (near _ _ _ _ _ P1 P2 (by rw [hf]) h) hfirst
      · exact near _ _ _ _ _ P3 P4 (by rw [hf]) h
    rw [if_neg hfirst]
    simp only [Option.bind_eq_bind, Option.bind_some]
    rw [if_pos hsecond, push_some (by simp [hnil])]
    exact ⟨_, rfl, by simp [hnil]⟩

/-- Where the two points of a pair are across the normal. -/
theorem over_params {A1 B1 A2 B2 γ : ℝ} (hw1 : tiny < A1 - B1) (hw2 : 0 < B2 - A2) (b1 : B1 ≤ γ) (b2 : γ ≤ A1) (b3 : A2 ≤ γ) (b4 : γ ≤ B2) :
    |(A2 + clamp01 ((A1 - A2) / (B2 - A2 + tiny)) * (B2 - A2)) - (A1 - clamp01 ((A1 - B2) / (A1 - B1 - tiny)) * (A1 - B1))| ≤
      tiny * ((A1 - B1) / (A1 - B1 - tiny) + 1) ∧
    |(A2 + clamp01 ((B1 - A2) / (B2 - A2 + tiny)) * (B2 - A2)) - (A1 - clamp01 ((A1 - A2) / (A1 - B1 - tiny)) * (A1 - B1))| ≤
      tiny * ((A1 - B1) / (A1 - B1 - tiny) + 1) := by
  obtain ⟨w1, ew1⟩ : ∃ w, w = A1 - B1 := ⟨_, rfl⟩
  obtain ⟨w2, ew2⟩ : ∃ w, w = B2 - A2 := ⟨_, rfl⟩
  rw [← ew1] at hw1 ⊢
  rw [← ew2] at hw2 ⊢
  have hw10 : 0 < w1 := tiny_pos.trans hw1
  obtain ⟨hi, hhi⟩ : ∃ hi, hi = min B2 A1 := ⟨_, rfl⟩
  obtain ⟨lo, hlo⟩ : ∃ lo, lo = max A2 B1 := ⟨_, rfl⟩
  have c1 : clamp01 ((A1 - B2) / w1) = (A1 - hi) / w1 := by
    rw [hhi]
    by_cases h : B2 ≤ A1
    · rw [min_eq_left h, clamp01_of_mem (div_nonneg (by linarith) hw10.le) ((div_le_one hw10).2 (by linarith))]
    · push Not at h
      rw [min_eq_right h.le, clamp01_of_le (div_nonpos_of_nonpos_of_nonneg (by linarith) hw10.le)]; simp
  have c2 : clamp01 ((A1 - A2) / w2) = (hi - A2) / w2 := by
    rw [hhi]
    by_cases h : B2 ≤ A1
    · rw [min_eq_left h, clamp01_of_ge ((one_le_div hw2).2 (by linarith)), ← ew2, div_self hw2.ne']
    · push Not at h
      rw [min_eq_right h.le, clamp01_of_mem (div_nonneg (by linarith) hw2.le) ((div_le_one hw2).2 (by linarith))]
  have c3 : clamp01 ((A1 - A2) / w1) = (A1 - lo) / w1 := by
    rw [hlo]
    by_cases h : B1 ≤ A2
    · rw [max_eq_left h, clamp01_of_mem (div_nonneg (by linarith) hw10.le) ((div_le_one hw10).2 (by linarith))]
    · push Not at h
      rw [max_eq_right h.le, clamp01_of_ge ((one_le_div hw10).2 (by linarith)), ← ew1, div_self hw10.ne']
  have c4 : clamp01 ((B1 - A2) / w2) = (lo - A2) / w2 := by
    rw [hlo]
    by_cases h : B1 ≤ A2
    · rw [max_eq_left h, clamp01_of_le (div_nonpos_of_nonpos_of_nonneg (by linarith) hw2.le)]; simp
    · push Not at h
      rw [max_eq_right h.le, clamp01_of_mem (div_nonneg (by linarith) hw2.le) ((div_le_one hw2).2 (by linarith))]
  have P1 := clamp_close_sub (A1 - B2) tiny_pos hw1
  have P2 := clamp_close_add (A1 - A2) tiny_pos hw2
  have P3 := clamp_close_sub (A1 - A2) tiny_pos hw1
  have P4 := clamp_close_add (B1 - A2) tiny_pos hw2
  rw [c1] at P1
  rw [c2] at P2
  rw [c3] at P3
  rw [c4] at P4
  have fin : ∀ x y m : ℝ, |x - (A1 - m) / w1| ≤ tiny / (w1 - tiny) → |y - (m - A2) / w2| ≤ tiny / (w2 + tiny) →
      |(A2 + y * w2) - (A1 - x * w1)| ≤ tiny * (w1 / (w1 - tiny) + 1) := by
    intro x y m hx hy
    have e : (A2 + y * w2) - (A1 - x * w1) = (y - (m - A2) / w2) * w2 + (x - (A1 - m) / w1) * w1 := by
      field_simp; ring
    rw [e]
    refine (abs_add_le _ _).trans ?_
    rw [abs_mul, abs_mul, abs_of_pos hw2, abs_of_pos hw10]
    have h1 := mul_le_mul_of_nonneg_right hx hw10.le
    have h2 := mul_le_mul_of_nonneg_right hy hw2.le
    have h3 : tiny / (w2 + tiny) * w2 ≤ tiny := by
      rw [div_mul_eq_mul_div, div_le_iff₀ (by linarith [tiny_pos])]
      nlinarith [tiny_pos]
    have h4 : tiny / (w1 - tiny) * w1 = tiny * (w1 / (w1 - tiny)) := by ring
    rw [h4] at h1
    linarith
  exact ⟨fin _ _ hi P1 P2, fin _ _ lo P3 P4⟩

/-- Both points of every pair are at the same place across the normal. -/
theorem contactPoints_over (e1 e2 : Edge ℝ) (c : Closest ℝ) (i : Info ℝ) (hnil : i.contacts = []) {A B : Vec ℝ}
    (hA : OnSegment e1.a e1.b A) (hB : OnSegment e2.a e2.b B) (hcr : A.cross c.n = B.cross c.n)
    (hw1 : tiny < widthAlong e1.a e1.b c.n) (hw2 : 0 < widthAlong e2.a e2.b c.n.neg) {j : Info ℝ} (h : contactPoints e1 e2 c i = some j) :
    ∀ k ∈ j.contacts, |(k.r2.sub k.r1).cross c.n| ≤
      tiny * (widthAlong e1.a e1.b c.n / (widthAlong e1.a e1.b c.n - tiny) + 1) := by
  obtain ⟨t, t0, t1, rfl⟩ := hA
  obtain ⟨s, s0, s1, rfl⟩ := hB
  have ew1 : widthAlong e1.a e1.b c.n = e1.a.cross c.n - e1.b.cross c.n := by simp only [widthAlong, Vec.cross, Vec.dot, Vec.rperp, Vec.sub]; ring
  have ew2 : widthAlong e2.a e2.b c.n.neg = e2.b.cross c.n - e2.a.cross c.n := by
    simp only [widthAlong, Vec.cross, Vec.dot, Vec.rperp, Vec.sub, Vec.neg]; ring
  rw [ew1] at hw1 ⊢
  rw [ew2] at hw2
  have hval : ∀ x y : ℝ, ((((c.n.mult (-e2.r)).add (e2.a.lerp e2.b y)).sub ((c.n.mult e1.r).add (e1.a.lerp e1.b x))).cross c.n) =
      (e2.a.cross c.n + y * (e2.b.cross c.n - e2.a.cross c.n)) - (e1.a.cross c.n - x * (e1.a.cross c.n - e1.b.cross c.n)) := by
    intro x y; simp only [Vec.cross, Vec.sub, Vec.add, Vec.mult, Vec.lerp]; ring
  obtain ⟨A1, hA1⟩ : ∃ x, x = e1.a.cross c.n := ⟨_, rfl⟩
  obtain ⟨B1, hB1⟩ : ∃ x, x = e1.b.cross c.n := ⟨_, rfl⟩
  obtain ⟨A2, hA2⟩ : ∃ x, x = e2.a.cross c.n := ⟨_, rfl⟩
  obtain ⟨B2, hB2⟩ : ∃ x, x = e2.b.cross c.n := ⟨_, rfl⟩
  have hγ : A1 - t * (A1 - B1) = A2 + s * (B2 - A2) := by
    rw [hA1, hB1, hA2, hB2]
    simp only [Vec.cross] at hcr ⊢
    linear_combination hcr
  rw [← hA1, ← hB1] at hw1
  rw [← hA2, ← hB2] at hw2
  rw [← hA1, ← hB1]
  simp only [← hA1, ← hB1, ← hA2, ← hB2] at hval
  have hw10 : 0 < A1 - B1 := tiny_pos.trans hw1
  have key := over_params (γ := A1 - t * (A1 - B1)) hw1 hw2 (by nlinarith) (by nlinarith) (by rw [hγ]; nlinarith) (by rw [hγ]; nlinarith)
  have q1 : ∀ x : ℝ, (x - A1) * (1 / (B1 - A1 + tiny)) = (A1 - x) / (A1 - B1 - tiny) := by
    intro x
    have : B1 - A1 + tiny = -(A1 - B1 - tiny) := by ring
    rw [this, mul_one_div, div_neg, ← neg_div]; congr 1; ring
  have q2 : ∀ x : ℝ, (x - A2) * (1 / (B2 - A2 + tiny)) = (x - A2) / (B2 - A2 + tiny) := fun x => mul_one_div _ _
  have htiny : (lit (1 / 10 ^ 15) : ℝ) = tiny := by rw [lit_real]; unfold tiny; push_cast; rfl
  unfold contactPoints at h
  simp only [htiny, ← hA1, ← hB1, ← hA2, ← hB2, q1, q2] at h
  split at h
  · cases h; simp [hnil]
  · split at h
    · rw [push_some (by simp [hnil])] at h
      simp only [Option.bind_eq_bind, Option.bind_some] at h
      split at h
      · rw [push_some (by simp [hnil])] at h
        cases h
        intro k hk
        simp only [hnil, List.nil_append, List.cons_append, List.mem_cons, List.not_mem_nil, or_false] at hk
        rcases hk with rfl | rfl
        · simp only [hval]; exact key.1
        · simp only [hval]; exact key.2
      · cases h
        intro k hk
        simp only [hnil, List.nil_append, List.mem_cons, List.not_mem_nil, or_false] at hk
        subst hk
        simp only [hval]; exact key.1
    · simp only [Option.bind_eq_bind, Option.bind_some] at h
      split at h
      · rw [push_some (by simp [hnil])] at h
        cases h
        intro k hk
        simp only [hnil, List.nil_append, List.mem_cons, List.not_mem_nil, or_false] at hk
        subst hk
        simp only [hval]; exact key.2
      · cases h; simp [hnil]

end CP
