import Verif.Model.Wrap
import Verif.Props.Geometry

/-! # C69: directions, angles and wrapped coordinates -/

namespace CP
open GoFloat

theorem toAngle_parts (v : Vec ℝ) : v.length * Real.cos v.toAngle = v.x ∧ v.length * Real.sin v.toAngle = v.y := by
  have e : v.length = ‖(⟨v.x, v.y⟩ : ℂ)‖ := by
    rw [Complex.norm_def, Complex.normSq_mk]; rfl
  rw [e]
  exact ⟨Complex.norm_mul_cos_arg _, Complex.norm_mul_sin_arg _⟩

/-- **C69**: `ToAngle` is between `-π` and `π`, and a vector is its length times `ForAngle` of its angle. -/
theorem C69_toAngle (v : Vec ℝ) : v = (Vec.forAngle v.toAngle).mult v.length ∧ -Real.pi < v.toAngle ∧ v.toAngle ≤ Real.pi := by
  obtain ⟨h1, h2⟩ := toAngle_parts v
  refine ⟨?_, Complex.neg_pi_lt_arg _, Complex.arg_le_pi _⟩
  simp only [Vec.forAngle, Vec.mult, cos_real, sin_real]
  ext
  · simp only []; linarith
  · simp only []; linarith

theorem angle_unique {a b : ℝ} (hc : Real.cos a = Real.cos b) (hs : Real.sin a = Real.sin b) : ∃ k : ℤ, b = a + k * (2 * Real.pi) := by
  have : (a : Real.Angle) = b := Real.Angle.cos_sin_inj hc hs
  obtain ⟨k, hk⟩ := Real.Angle.angle_eq_iff_two_pi_dvd_sub.1 this
  exact ⟨-k, by push_cast; linarith⟩

/-- **C69**: `ToAngle` of `r · ForAngle(a)`, `r > 0`, is `a`, up to whole turns; exactly `a` if `a` is between `-π` and `π`. -/
theorem C69_forAngle {r : ℝ} (hr : 0 < r) (a : ℝ) : (∃ k : ℤ, ((Vec.forAngle a).mult r).toAngle = a + k * (2 * Real.pi)) ∧
    (-Real.pi < a → a ≤ Real.pi → ((Vec.forAngle a).mult r).toAngle = a) ∧ ((Vec.forAngle a).mult r).length = r := by
  have hl : ((Vec.forAngle a).mult r).length = r := by
    simp only [Vec.length, Vec.dot, Vec.mult, Vec.forAngle, cos_real, sin_real, sqrt_real]
    rw [show Real.cos a * r * (Real.cos a * r) + Real.sin a * r * (Real.sin a * r) = r ^ 2 * (Real.sin a ^ 2 + Real.cos a ^ 2) by ring, Real.sin_sq_add_cos_sq, mul_one,
      Real.sqrt_sq hr.le]
  obtain ⟨h1, h2⟩ := toAngle_parts ((Vec.forAngle a).mult r)
  obtain ⟨-, b1, b2⟩ := C69_toAngle ((Vec.forAngle a).mult r)
  rw [hl] at h1 h2
  generalize ((Vec.forAngle a).mult r).toAngle = b at *
  simp only [Vec.forAngle, Vec.mult, cos_real, sin_real] at h1 h2
  have c : Real.cos a = Real.cos b := by
    have := mul_left_cancel₀ hr.ne' (h1.trans (mul_comm _ _)); exact this.symm
  have d : Real.sin a = Real.sin b := by
    have := mul_left_cancel₀ hr.ne' (h2.trans (mul_comm _ _)); exact this.symm
  obtain ⟨k, hk⟩ := angle_unique c d
  refine ⟨⟨k, hk⟩, fun l u => ?_, hl⟩
  have hp := Real.pi_pos
  have k0 : k = 0 := by
    have h1 : (k : ℝ) < 1 := by by_contra h; nlinarith
    have h2 : (-1 : ℝ) < k := by by_contra h; nlinarith
    have h1' : k < 1 := by exact_mod_cast h1
    have h2' : -1 < k := by exact_mod_cast h2
    omega
  rw [hk, k0]; simp

/-- **C69**: `Rotate` by a unit vector turns by its angle: it adds the angles (up to whole turns) and keeps the length; `Unrotate` turns back. In general the lengths are
multiplied, and `Unrotate` after `Rotate` multiplies by the square of the length. `Perp` is a quarter turn to the left. -/
theorem C69_rotate (v o : Vec ℝ) (a : ℝ) :
    (v.rotate o).length = v.length * o.length ∧ (v.rotate o).unrotate o = v.mult (o.dot o) ∧ (v.unrotate o).rotate o = v.mult (o.dot o) ∧
    (v.rotate (Vec.forAngle a)).length = v.length ∧ (v.rotate (Vec.forAngle a)).unrotate (Vec.forAngle a) = v ∧
    (v ≠ ⟨0, 0⟩ → ∃ k : ℤ, (v.rotate (Vec.forAngle a)).toAngle = v.toAngle + a + k * (2 * Real.pi)) ∧
    v.perp = v.rotate (Vec.forAngle (Real.pi / 2)) := by
  have m : ∀ v o : Vec ℝ, (v.rotate o).length = v.length * o.length := by
    intro v o
    simp only [Vec.length, Vec.dot, Vec.rotate, sqrt_real]
    rw [← Real.sqrt_mul (add_nonneg (mul_self_nonneg _) (mul_self_nonneg _))]
    congr 1; ring
  have u : (Vec.forAngle a).length = 1 ∧ (Vec.forAngle a).dot (Vec.forAngle a) = 1 := by
    have : (Vec.forAngle a).dot (Vec.forAngle a) = 1 := by
      simp only [Vec.dot, Vec.forAngle, cos_real, sin_real]
      rw [← Real.sin_sq_add_cos_sq a]; ring
    exact ⟨by rw [Vec.length, this, sqrt_real, Real.sqrt_one], this⟩
  have r : ∀ v o : Vec ℝ, (v.rotate o).unrotate o = v.mult (o.dot o) := by
    intro v o
    simp only [Vec.rotate, Vec.unrotate, Vec.mult, Vec.dot, Vec.mk.injEq]
    constructor <;> ring
  refine ⟨m v o, r v o, ?_, by rw [m, u.1, mul_one], ?_, ?_, ?_⟩
  · simp only [Vec.rotate, Vec.unrotate, Vec.mult, Vec.dot, Vec.mk.injEq]
    constructor <;> ring
  · rw [r, u.2]; simp [Vec.mult]
  · intro hv
    have hr : 0 < v.length := by
      simp only [Vec.length, sqrt_real]
      apply Real.sqrt_pos.2
      rcases eq_or_ne v.x 0 with hx | hx
      · have hy : v.y ≠ 0 := fun hy => hv (Vec.ext hx hy)
        have := mul_self_pos.2 hy
        simp only [Vec.dot]
        nlinarith [mul_self_nonneg v.x]
      · have := mul_self_pos.2 hx
        simp only [Vec.dot]
        nlinarith [mul_self_nonneg v.y]
    obtain ⟨h1, h2⟩ := toAngle_parts v
    have e : v.rotate (Vec.forAngle a) = (Vec.forAngle (v.toAngle + a)).mult v.length := by
      simp only [Vec.rotate, Vec.forAngle, Vec.mult, cos_real, sin_real, Real.cos_add, Real.sin_add, Vec.mk.injEq]
      rw [← h1, ← h2]
      generalize v.length = l
      generalize v.toAngle = b
      constructor <;> ring
    rw [e]
    exact (C69_forAngle hr _).1
  · simp [Vec.perp, Vec.rotate, Vec.forAngle, cos_real, sin_real]

theorem fmod_wrap (x d : ℝ) (hd : 0 < d) : ∃ w, w = (if 0 < fmod x d then fmod x d else fmod x d + d) ∧ 0 < w ∧ w ≤ d ∧ ∃ k : ℤ, w = x + k * d := by
  refine ⟨_, rfl, ?_⟩
  obtain ⟨q, hq⟩ : ∃ q, q = x / d := ⟨_, rfl⟩
  have hx : x = q * d := by rw [hq]; field_simp
  have e : fmod x d = (q - ((if 0 ≤ q then ⌊q⌋ else ⌈q⌉ : ℤ) : ℝ)) * d := by
    show x - (((if 0 ≤ x / d then ⌊x / d⌋ else ⌈x / d⌉ : ℤ) : ℝ)) * d = _
    rw [← hq, hx]; ring
  rw [e]
  by_cases h : 0 ≤ q
  · simp only [if_pos h]
    have h1 := Int.floor_le q
    have h2 := Int.lt_floor_add_one q
    split
    · rename_i g
      exact ⟨g, by nlinarith, -⌊q⌋, by rw [hx]; push_cast; ring⟩
    · rename_i g
      have g' : (q - (⌊q⌋ : ℝ)) * d = 0 := le_antisymm (not_lt.1 g) (mul_nonneg (by linarith) hd.le)
      refine ⟨by rw [g']; linarith, by rw [g']; linarith, 1 - ⌊q⌋, by rw [hx]; push_cast; ring⟩
  · simp only [if_neg h]
    have h1 := Int.le_ceil q
    have h2 := Int.ceil_lt_add_one q
    have g : ¬ 0 < (q - (⌈q⌉ : ℝ)) * d := by nlinarith
    rw [if_neg g]
    exact ⟨by nlinarith, by nlinarith, 1 - ⌈q⌉, by rw [hx]; push_cast; ring⟩

theorem wrap_unique {x y l d : ℝ} (hx : l < x ∧ x ≤ l + d) (hy : l < y ∧ y ≤ l + d) {k : ℤ} (h : y = x + k * d) : y = x := by
  have hd : 0 < d := by linarith [hx.1, hx.2]
  have h1 : (k : ℝ) < 1 := by by_contra h'; nlinarith [hx.1, hy.2]
  have h2 : (-1 : ℝ) < k := by by_contra h'; nlinarith [hx.2, hy.1]
  have h1' : k < 1 := by exact_mod_cast h1
  have h2' : -1 < k := by exact_mod_cast h2
  obtain rfl : k = 0 := by omega
  simpa using h

/-- **C69**: `WrapVect` moves a point into the box (without its left and bottom side) by whole widths and heights of the box. -/
theorem C69_wrap (bb : BB ℝ) (v : Vec ℝ) (hx : bb.l < bb.r) (hy : bb.b < bb.t) :
    (bb.l < (bb.wrapVect v).x ∧ (bb.wrapVect v).x ≤ bb.r ∧ ∃ k : ℤ, (bb.wrapVect v).x = v.x + k * (bb.r - bb.l)) ∧
    (bb.b < (bb.wrapVect v).y ∧ (bb.wrapVect v).y ≤ bb.t ∧ ∃ k : ℤ, (bb.wrapVect v).y = v.y + k * (bb.t - bb.b)) := by
  have fx : fabs (bb.r - bb.l) = bb.r - bb.l := by rw [fabs_real, abs_of_pos (by linarith)]
  have fy : fabs (bb.t - bb.b) = bb.t - bb.b := by rw [fabs_real, abs_of_pos (by linarith)]
  obtain ⟨w, hw, w0, w1, k, hk⟩ := fmod_wrap (v.x - bb.l) (bb.r - bb.l) (by linarith)
  obtain ⟨u, hu, u0, u1, j, hj⟩ := fmod_wrap (v.y - bb.b) (bb.t - bb.b) (by linarith)
  have e : bb.wrapVect v = ⟨w + bb.l, u + bb.b⟩ := by
    rw [hw, hu]; simp only [BB.wrapVect, fx, fy]
  rw [e]
  exact ⟨⟨by simp only []; linarith, by simp only []; linarith, k, by rw [hk]; ring⟩, by simp only []; linarith, by simp only []; linarith, j, by rw [hj]; ring⟩

/-- **C69**: so points of the box (not on its left or bottom side) stay where they are, points that differ by whole widths and heights go to the same point, and wrapping twice
is wrapping once. -/
theorem C69_wrap_same (bb : BB ℝ) (v : Vec ℝ) (hx : bb.l < bb.r) (hy : bb.b < bb.t) :
    (bb.l < v.x → v.x ≤ bb.r → bb.b < v.y → v.y ≤ bb.t → bb.wrapVect v = v) ∧
    (∀ i j : ℤ, bb.wrapVect ⟨v.x + i * (bb.r - bb.l), v.y + j * (bb.t - bb.b)⟩ = bb.wrapVect v) ∧ bb.wrapVect (bb.wrapVect v) = bb.wrapVect v := by
  have key : ∀ u w : Vec ℝ, (∃ k : ℤ, w.x = u.x + k * (bb.r - bb.l)) → (∃ k : ℤ, w.y = u.y + k * (bb.t - bb.b)) →
      bb.l < w.x → w.x ≤ bb.r → bb.b < w.y → w.y ≤ bb.t → bb.wrapVect u = w := by
    rintro u w ⟨k, hk⟩ ⟨j, hj⟩ a1 a2 a3 a4
    obtain ⟨⟨b1, b2, k', hk'⟩, b3, b4, j', hj'⟩ := C69_wrap bb u hx hy
    refine Vec.ext ?_ ?_
    · refine wrap_unique (l := bb.l) (d := bb.r - bb.l) ⟨a1, by linarith⟩ ⟨b1, by linarith⟩ (k := k' - k) ?_
      rw [hk', hk]; push_cast; ring
    · refine wrap_unique (l := bb.b) (d := bb.t - bb.b) ⟨a3, by linarith⟩ ⟨b3, by linarith⟩ (k := j' - j) ?_
      rw [hj', hj]; push_cast; ring
  obtain ⟨⟨b1, b2, k', hk'⟩, b3, b4, j', hj'⟩ := C69_wrap bb v hx hy
  refine ⟨fun a1 a2 a3 a4 => key v v ⟨0, by simp⟩ ⟨0, by simp⟩ a1 a2 a3 a4, fun i j => key _ _ ⟨k' - i, ?_⟩ ⟨j' - j, ?_⟩ b1 b2 b3 b4, key _ _ ⟨0, by simp⟩ ⟨0, by simp⟩ b1 b2 b3 b4⟩
  · simp only []; rw [hk']; push_cast; ring
  · simp only []; rw [hj']; push_cast; ring

/-- C69_wrap is not vacuous, and the box lacks its left and bottom side: its lower left corner is moved to the upper right one. -/
theorem C69_wrap_corner : (⟨0, 0, 4, 3⟩ : BB ℝ).wrapVect ⟨0, 0⟩ = ⟨4, 3⟩ ∧ (⟨0, 0, 4, 3⟩ : BB ℝ).wrapVect ⟨-1, 7⟩ = ⟨3, 1⟩ := by
  have key : ∀ v w : Vec ℝ, 0 < w.x → w.x ≤ 4 → 0 < w.y → w.y ≤ 3 → ∀ i j : ℤ, v = ⟨w.x + i * 4, w.y + j * 3⟩ → (⟨0, 0, 4, 3⟩ : BB ℝ).wrapVect v = w := by
    intro v w a1 a2 a3 a4 i j hv
    obtain ⟨h1, h2, -⟩ := C69_wrap_same ⟨0, 0, 4, 3⟩ w (by norm_num) (by norm_num)
    have := h2 i j
    simp only [sub_zero] at this
    rw [hv, this]
    exact h1 a1 a2 a3 a4
  refine ⟨key _ _ (by norm_num) (by norm_num) (by norm_num) (by norm_num) (-1) (-1) ?_, key _ _ (by norm_num) (by norm_num) (by norm_num) (by norm_num) (-1) 2 ?_⟩ <;>
    ext <;> norm_num

theorem normalize_short (v : Vec ℝ) : v.normalize.dot v.normalize < 1 := by
  have h0 : (0 : ℝ) ≤ v.length := by rw [Vec.length, sqrt_real]; exact Real.sqrt_nonneg _
  have hl : v.length * v.length = v.dot v := by
    rw [Vec.length, sqrt_real]; exact Real.mul_self_sqrt (add_nonneg (mul_self_nonneg _) (mul_self_nonneg _))
  obtain ⟨ε, hε, he⟩ : ∃ ε : ℝ, ε = (lit (1 / 10 ^ 15) : ℝ) ∧ 0 < ε := ⟨_, rfl, by simp only [lit_real]; norm_num⟩
  have e : v.normalize.dot v.normalize = v.dot v / (v.length + ε) ^ 2 := by
    simp only [Vec.normalize, ← hε, Vec.dot, Vec.mult]
    field_simp
  rw [e, ← hl, div_lt_one (by positivity)]
  nlinarith

/-- The angle that `SLerp` works with is strictly between 0 and π. -/
theorem slerp_angle (v o : Vec ℝ) : 0 < acos (clamp (v.normalize.dot o.normalize) (lit (-1)) 1) ∧ acos (clamp (v.normalize.dot o.normalize) (lit (-1)) 1) < Real.pi := by
  have h1 := normalize_short v
  have h2 := normalize_short o
  have hd : -1 < v.normalize.dot o.normalize ∧ v.normalize.dot o.normalize < 1 := by
    generalize v.normalize = p at *
    generalize o.normalize = q at *
    simp only [Vec.dot] at *
    constructor
    · nlinarith [mul_self_nonneg (p.x + q.x), mul_self_nonneg (p.y + q.y)]
    · nlinarith [mul_self_nonneg (p.x - q.x), mul_self_nonneg (p.y - q.y)]
  have hl : (lit (-1) : ℝ) = -1 := by simp
  have hc : clamp (v.normalize.dot o.normalize) (lit (-1)) 1 = v.normalize.dot o.normalize := by
    rw [hl, clamp_eq_real _ _ _ (by norm_num), min_eq_left hd.2.le, max_eq_right hd.1.le]
  rw [hc]
  show 0 < Real.arccos _ ∧ Real.arccos _ < Real.pi
  constructor
  · rw [Real.arccos_pos]; exact hd.2
  · exact lt_of_le_of_ne (Real.arccos_le_pi _) fun h => by rw [Real.arccos_eq_pi] at h; linarith [hd.1]

/-- **C69**: `SLerp` starts at the one vector and ends at the other, and is the same from the other side; `SlerpConst` by nothing stays, and by half a turn or more arrives. -/
theorem C69_slerp (v o : Vec ℝ) (t : ℝ) : v.slerp o 0 = v ∧ v.slerp o 1 = o ∧ v.slerp o t = o.slerp v (1 - t) ∧
    v.slerpConst o 0 = v ∧ ∀ a, Real.pi ≤ a → v.slerpConst o a = o := by
  obtain ⟨h0, h1⟩ := slerp_angle v o
  have hs : Real.sin (acos (clamp (v.normalize.dot o.normalize) (lit (-1)) 1)) ≠ 0 := (Real.sin_pos_of_pos_of_lt_pi h0 h1).ne'
  have e0 : v.slerp o 0 = v := by
    simp only [Vec.slerp]
    split
    · simp [Vec.lerp, Vec.add, Vec.mult]
    · simp only [sin_real, sub_zero, one_mul, zero_mul, Real.sin_zero, mul_one_div_cancel hs, zero_mul, Vec.add, Vec.mult]
      ext <;> simp
  have e1 : v.slerp o 1 = o := by
    simp only [Vec.slerp]
    split
    · simp [Vec.lerp, Vec.add, Vec.mult]
    · simp only [sin_real, sub_self, one_mul, zero_mul, Real.sin_zero, mul_one_div_cancel hs, Vec.add, Vec.mult]
      ext <;> simp
  refine ⟨e0, e1, ?_, ?_, ?_⟩
  · have hc : v.normalize.dot o.normalize = o.normalize.dot v.normalize := by simp only [Vec.dot]; ring
    simp only [Vec.slerp, hc, sub_sub_cancel]
    split
    · simp only [Vec.lerp, Vec.add, Vec.mult, Vec.mk.injEq]; constructor <;> ring
    · simp only [Vec.add, Vec.mult, Vec.mk.injEq]; constructor <;> ring
  · show v.slerp o (min 0 _ / _) = v
    rw [min_eq_left h0.le, zero_div]; exact e0
  · intro a ha
    show v.slerp o (min a _ / _) = o
    rw [min_eq_right (h1.le.trans ha), div_self h0.ne']; exact e1

end CP
