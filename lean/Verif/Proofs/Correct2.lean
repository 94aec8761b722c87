import Verif.Proofs.Correct
import Mathlib.Analysis.SpecialFunctions.Trigonometric.Deriv
import Mathlib.Analysis.SpecialFunctions.Trigonometric.Bounds
import Mathlib.Analysis.Calculus.Deriv.MeanValue
import Mathlib.Analysis.Calculus.Deriv.Pow

/-! # How points of turning bodies move -/

namespace CP
open GoFloat

theorem Vec.length_add_le (u v : Vec ℝ) : (u.add v).length ≤ u.length + v.length := by
  have h1 := u.length_nonneg
  have h2 := v.length_nonneg
  have h3 := (u.add v).length_nonneg
  have e1 := u.length_sq
  have e2 := v.length_sq
  have e3 := (u.add v).length_sq
  have hcs : u.dot v ≤ u.length * v.length := by
    have hsq : (u.dot v) ^ 2 ≤ (u.length * v.length) ^ 2 := by
      rw [mul_pow, e1, e2]
      simp only [Vec.dot]
      nlinarith [sq_nonneg (u.x * v.y - u.y * v.x)]
    exact le_of_sq_le_sq hsq (mul_nonneg h1 h2)
  have hs : (u.add v).length ^ 2 ≤ (u.length + v.length) ^ 2 := by
    have : (u.add v).dot (u.add v) = u.dot u + 2 * u.dot v + v.dot v := by simp only [Vec.dot, Vec.add]; ring
    rw [e3, this, ← e1, ← e2]
    nlinarith
  exact le_of_sq_le_sq hs (by linarith)
where
  le_of_sq_le_sq {x y : ℝ} (h : x ^ 2 ≤ y ^ 2) (hy : 0 ≤ y) : x ≤ y := by
    by_contra hc
    push Not at hc
    nlinarith

/-- The circle stays close to its tangent. -/
theorem circle_tangent (θ : ℝ) : (Real.cos θ - 1) ^ 2 + (Real.sin θ - θ) ^ 2 ≤ (θ ^ 2 / 2) ^ 2 := by
  have key : ∀ x : ℝ, 0 ≤ x → (Real.cos x - 1) ^ 2 + (Real.sin x - x) ^ 2 ≤ (x ^ 2 / 2) ^ 2 := by
    let f : ℝ → ℝ := fun x => (x ^ 2 / 2) ^ 2 - ((Real.cos x - 1) ^ 2 + (Real.sin x - x) ^ 2)
    have hd : ∀ x, HasDerivAt f (x ^ 3 - 2 * x * (1 - Real.cos x)) x := by
      intro x
      have h1 : HasDerivAt (fun x : ℝ => (x ^ 2 / 2) ^ 2) (2 * (x ^ 2 / 2) * (2 * x / 2)) x := by
        have := (((hasDerivAt_id x).pow 2).div_const 2).pow 2
        exact HasDerivAt.congr_deriv (f := fun x : ℝ => (x ^ 2 / 2) ^ 2) this (by simp)
      have h2 : HasDerivAt (fun x : ℝ => (Real.cos x - 1) ^ 2) (2 * (Real.cos x - 1) * (-Real.sin x)) x := by
        have := ((Real.hasDerivAt_cos x).sub_const 1).pow 2
        exact HasDerivAt.congr_deriv (f := fun x : ℝ => (Real.cos x - 1) ^ 2) this (by simp)
      have h3 : HasDerivAt (fun x : ℝ => (Real.sin x - x) ^ 2) (2 * (Real.sin x - x) * (Real.cos x - 1)) x := by
        have := ((Real.hasDerivAt_sin x).sub (hasDerivAt_id x)).pow 2
        exact HasDerivAt.congr_deriv (f := fun x : ℝ => (Real.sin x - x) ^ 2) this (by simp)
      have := h1.sub (h2.add h3)
      exact HasDerivAt.congr_deriv (f := f) this (by ring)
    intro x hx
    have hmono : MonotoneOn f (Set.Ici 0) := by
      apply monotoneOn_of_deriv_nonneg (convex_Ici 0)
      · exact fun y _ => (hd y).continuousAt.continuousWithinAt
      · exact fun y _ => (hd y).differentiableAt.differentiableWithinAt
      · intro y hy
        rw [interior_Ici] at hy
        have hy0 : 0 < y := hy
        rw [(hd y).deriv]
        have := Real.one_sub_sq_div_two_le_cos (x := y)
        nlinarith
    have := hmono (Set.mem_Ici.2 le_rfl) (Set.mem_Ici.2 hx) hx
    simp only [f] at this
    simp at this
    linarith
  rcases le_total 0 θ with h | h
  · exact key θ h
  · have := key (-θ) (by linarith)
    rw [Real.cos_neg, Real.sin_neg] at this
    nlinarith

/-- Turning a vector by `θ` moves it along the tangent, up to half of its length times `θ²`. -/
theorem turn_tangent (r : Vec ℝ) (θ : ℝ) :
    (Vec.mk (Real.cos θ * r.x - Real.sin θ * r.y - r.x + θ * r.y) (Real.sin θ * r.x + Real.cos θ * r.y - r.y - θ * r.x)).length ≤ r.length * θ ^ 2 / 2 := by
  have h := circle_tangent θ
  have h1 := r.length_nonneg
  have e := (Vec.mk (Real.cos θ * r.x - Real.sin θ * r.y - r.x + θ * r.y) (Real.sin θ * r.x + Real.cos θ * r.y - r.y - θ * r.x)).length_sq
  have e2 := r.length_sq
  refine Vec.length_add_le.le_of_sq_le_sq ?_ (by positivity)
  rw [e]
  have e3 : (Vec.mk (Real.cos θ * r.x - Real.sin θ * r.y - r.x + θ * r.y) (Real.sin θ * r.x + Real.cos θ * r.y - r.y - θ * r.x)).dot
      (Vec.mk (Real.cos θ * r.x - Real.sin θ * r.y - r.x + θ * r.y) (Real.sin θ * r.x + Real.cos θ * r.y - r.y - θ * r.x)) =
      r.dot r * ((Real.cos θ - 1) ^ 2 + (Real.sin θ - θ) ^ 2) := by
    simp only [Vec.dot]; ring
  rw [e3]
  have e4 : (r.length * θ ^ 2 / 2) ^ 2 = r.dot r * (θ ^ 2 / 2) ^ 2 := by rw [← e2]; ring
  rw [e4]
  exact mul_le_mul_of_nonneg_left h (by rw [← e2]; positivity)

theorem UpToDate.wf {h : Bodies ℝ} {k : Nat} (u : UpToDate h k) : (h k).Wf := u

theorem seen_wf {m : Motion ℝ} {t : Tick ℝ} {x : Nat} (hn : t.movers.Nodup) (u : UpToDate m.bodies x) : (m.seen t x).Wf := by
  rw [Motion.seen, move_apply _ _ hn]
  split
  · rfl
  · exact u

theorem Frozen.wf {x y : Body ℝ} (h : Frozen x y) (w : x.Wf) : y.Wf := by
  have : y.transform = (y.setTransform y.p y.a).transform := by
    rw [h.transform, w]
    simp only [Body.setTransform, h.p, h.a, h.cog]
  exact this

theorem Frozen.grip {h h' : Bodies ℝ} {k : Nat} (f : Frozen (h k) (h' k)) (q : Vec ℝ) : CP.grip h' k q = CP.grip h k q := by
  simp only [CP.grip, Body.localToWorld, f.transform]

/-- Where a grip gets in the next step. -/
theorem carried_grip {t : Tick ℝ} {m : Motion ℝ} {x : Nat} (hc : t.Carries m.bodies x) (w : (m.bodies x).Wf) (q : Vec ℝ) :
    ∃ ρ : Vec ℝ, ρ.length ≤ swing m.bodies x q t.dt ∧
      grip (m.seen t) x q = (((grip m.bodies x q).add (((m.bodies x).v.add ((anchorOffset (m.bodies x) q).perp.mult (m.bodies x).w)).mult t.dt)).add
        (biasMove m.bodies x q t.dt)).add ρ := by
  have hoff : (grip m.bodies x q).sub (m.bodies x).p = anchorOffset (m.bodies x) q := by
    rw [grip_eq w]; ext <;> simp [Vec.add, Vec.sub]
  have hdist : (grip m.bodies x q).distance (m.bodies x).p = (anchorOffset (m.bodies x) q).length := by rw [← hoff, ← sub_length]; rw [Vec.length, Vec.length]; congr 1; simp only [Vec.dot, Vec.sub]; ring
  simp only [swing, biasMove]
  rw [hoff, hdist]
  obtain ⟨hn, hc⟩ := hc
  rw [Motion.seen]
  by_cases hm : x ∈ t.movers
  · refine ⟨_, turn_tangent (anchorOffset (m.bodies x) q) (((m.bodies x).w + (m.bodies x).w_bias) * t.dt), ?_⟩
    have hg : grip (Motion.move m.bodies t.dt t.movers) x q = ((m.bodies x).updatePosition t.dt).localToWorld q := by
      rw [grip, move_apply _ _ hn, if_pos hm]
    have w' : ((m.bodies x).updatePosition t.dt).Wf := rfl
    rw [hg, w'.localToWorld, grip_eq w, anchorOffset, w]
    simp only [Body.place, Body.updatePosition, Body.setTransform, Transform.transpose, Transform.vect, cos_real, sin_real]
    rw [Real.cos_add, Real.sin_add]
    ext <;> simp only [Vec.add, Vec.sub, Vec.mult, Vec.perp] <;> ring
  · have hr := hc.resolve_left hm
    refine ⟨⟨0, 0⟩, ?_, ?_⟩
    · have : (Vec.mk (0 : ℝ) 0).length = 0 := by simp [Vec.length, Vec.dot]
      rw [this]
      have := (anchorOffset (m.bodies x) q).length_nonneg
      positivity
    · obtain ⟨h1, h2, h3, h4⟩ := hr
      have hg : grip (Motion.move m.bodies t.dt t.movers) x q = grip m.bodies x q := by
        rw [grip, move_apply _ _ hn, if_neg hm]; rfl
      rw [hg, h1, h2, h3, h4]
      ext <;> simp [Vec.add, Vec.mult, Vec.perp]

/-- A vector that was cut to length `l` is longer than `l - 1e-15`. -/
theorem clampLen_inside (v : Vec ℝ) (l : ℝ) (h : (v.clampLen l).length + 1 / 10 ^ 15 ≤ l) : v.clampLen l = v := by
  have hl : 0 ≤ l := by have := (v.clampLen l).length_nonneg; linarith [show (0:ℝ) < 1 / 10 ^ 15 by positivity]
  by_cases hv : v.length ≤ l
  · exact (C41_clampLen v l hl).2.1 hv
  · push Not at hv
    exfalso
    have hcond : l * l < v.dot v := by
      rw [← v.length_sq]; nlinarith
    have e : v.clampLen l = v.normalize.mult l := by
      unfold Vec.clampLen
      rw [if_pos hcond]
    rw [e, Vec.length_mult, abs_of_nonneg hl, (C41_normalize v).1] at h
    have hpos : 0 < v.length + 1 / 10 ^ 15 := by have := v.length_nonneg; positivity
    rw [div_mul_eq_mul_div, div_add' _ _ _ hpos.ne', div_le_iff₀ hpos] at h
    have : (0:ℝ) < 1 / 10 ^ 15 := by positivity
    nlinarith

end CP
