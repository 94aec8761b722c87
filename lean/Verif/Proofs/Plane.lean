import Verif.Spec.Shapes
import Mathlib.Analysis.Complex.Norm

/-! # Euclidean geometry of the plane -/

namespace CP
namespace Vec

/-- As a complex number. -/
def toC (v : Vec ℝ) : ℂ := ⟨v.x, v.y⟩

theorem length_eq_norm (v : Vec ℝ) : v.length = ‖v.toC‖ := by
  rw [Complex.norm_eq_sqrt_sq_add_sq]
  simp only [length, dot, sqrt_real, toC]
  congr 1; ring

theorem distance_eq_norm (v w : Vec ℝ) : v.distance w = ‖v.toC - w.toC‖ := by
  rw [distance, length_eq_norm]; rfl

theorem distance_triangle (a b c : Vec ℝ) : a.distance c ≤ a.distance b + b.distance c := by
  simp only [distance_eq_norm]; exact norm_sub_le_norm_sub_add_norm_sub _ _ _

theorem distance_comm (a b : Vec ℝ) : a.distance b = b.distance a := by
  simp only [distance_eq_norm]; exact norm_sub_rev _ _

theorem distance_nonneg (a b : Vec ℝ) : 0 ≤ a.distance b := by rw [distance_eq_norm]; exact norm_nonneg _

theorem distance_self (a : Vec ℝ) : a.distance a = 0 := by rw [distance_eq_norm, sub_self, norm_zero]

theorem distance_sq (a b : Vec ℝ) : a.distance b ^ 2 = (a.x - b.x) ^ 2 + (a.y - b.y) ^ 2 := by
  rw [distance, length_sq]; simp only [sub, dot]; ring

theorem distance_eq_zero {a b : Vec ℝ} : a.distance b = 0 ↔ a = b := by
  constructor
  · intro h
    have h2 := distance_sq a b
    rw [h] at h2
    have hx : a.x - b.x = 0 := by nlinarith [sq_nonneg (a.x - b.x), sq_nonneg (a.y - b.y)]
    have hy : a.y - b.y = 0 := by nlinarith [sq_nonneg (a.x - b.x), sq_nonneg (a.y - b.y)]
    ext <;> linarith
  · rintro rfl; exact distance_self a

theorem distance_le_iff {a b : Vec ℝ} {r : ℝ} (hr : 0 ≤ r) :
    a.distance b ≤ r ↔ (a.x - b.x) ^ 2 + (a.y - b.y) ^ 2 ≤ r ^ 2 := by
  rw [← distance_sq]
  exact ⟨fun h => pow_le_pow_left₀ (distance_nonneg a b) h 2, fun h => le_of_sq_le_sq h hr⟩
where le_of_sq_le_sq {x y : ℝ} (h : x ^ 2 ≤ y ^ 2) (hy : 0 ≤ y) : x ≤ y := abs_le_of_sq_le_sq' h hy |>.2

theorem le_distance_iff {a b : Vec ℝ} {r : ℝ} (hr : 0 ≤ r) :
    r ≤ a.distance b ↔ r ^ 2 ≤ (a.x - b.x) ^ 2 + (a.y - b.y) ^ 2 := by
  rw [← distance_sq]
  exact ⟨fun h => pow_le_pow_left₀ hr h 2, fun h => abs_le_of_sq_le_sq' h (distance_nonneg a b) |>.2⟩

theorem abs_x_le (a b : Vec ℝ) : |a.x - b.x| ≤ a.distance b := by
  rw [le_distance_iff (abs_nonneg _), sq_abs]; nlinarith [sq_nonneg (a.y - b.y)]
theorem abs_y_le (a b : Vec ℝ) : |a.y - b.y| ≤ a.distance b := by
  rw [le_distance_iff (abs_nonneg _), sq_abs]; nlinarith [sq_nonneg (a.x - b.x)]

end Vec

namespace Transform.IsRigid
variable {t : Transform ℝ} (h : t.IsRigid)
include h

theorem distance (p q : Vec ℝ) : (t.point p).distance (t.point q) = p.distance q := by
  obtain ⟨h1, h2, h3⟩ := h
  rw [← Real.sqrt_sq (Vec.distance_nonneg p q), ← Real.sqrt_sq (Vec.distance_nonneg (t.point p) (t.point q))]
  congr 1
  rw [Vec.distance_sq, Vec.distance_sq]
  simp only [Transform.point, h2, h3]
  linear_combination ((p.x - q.x) ^ 2 + (p.y - q.y) ^ 2) * h1

/-- Every point is the image of a point. -/
theorem surj (w : Vec ℝ) : ∃ p, t.point p = w := by
  obtain ⟨h1, h2, h3⟩ := h
  refine ⟨⟨t.a * (w.x - t.tx) + t.b * (w.y - t.ty), t.c * (w.x - t.tx) + t.d * (w.y - t.ty)⟩, ?_⟩
  ext
  · simp only [Transform.point, h2, h3]; linear_combination (w.x - t.tx) * h1
  · simp only [Transform.point, h2, h3]; linear_combination (w.y - t.ty) * h1

theorem inj {p q : Vec ℝ} (e : t.point p = t.point q) : p = q := by
  rw [← Vec.distance_eq_zero, ← h.distance, e, Vec.distance_self]

end Transform.IsRigid

theorem OnSegment.left (a b : Vec ℝ) : OnSegment a b a := ⟨0, by norm_num, by norm_num, by ext <;> simp⟩
theorem OnSegment.right (a b : Vec ℝ) : OnSegment a b b := ⟨1, by norm_num, by norm_num, by ext <;> simp⟩

theorem OnSegment.image (t : Transform ℝ) {a b p : Vec ℝ} (h : OnSegment a b p) :
    OnSegment (t.point a) (t.point b) (t.point p) := by
  obtain ⟨s, h0, h1, rfl⟩ := h
  refine ⟨s, h0, h1, ?_⟩
  ext <;> simp only [Transform.point] <;> ring

theorem isConvex_onSegment (a b : Vec ℝ) : IsConvex (OnSegment a b) := by
  rintro p q x ⟨s, hs0, hs1, rfl⟩ ⟨u, hu0, hu1, rfl⟩ ⟨w, hw0, hw1, rfl⟩
  refine ⟨s + w * (u - s), ?_, ?_, ?_⟩
  · nlinarith
  · nlinarith
  · ext <;> simp only <;> ring

theorem isConvex_hull (S : Pts) : IsConvex (Hull S) := fun _ _ _ hp hq hx => Hull.mix hp hq hx

/-- The hull is the least convex set. -/
theorem Hull.least {S T : Pts} (hT : IsConvex T) (hS : ∀ p, S p → T p) {p : Vec ℝ} (h : Hull S p) : T p := by
  induction h with
  | pt h => exact hS _ h
  | mix _ _ hx ih1 ih2 => exact hT _ _ _ ih1 ih2 hx

/-- A half plane is convex. -/
theorem isConvex_halfplane (n : Vec ℝ) (c : ℝ) : IsConvex (fun p => n.dot p ≤ c) := by
  rintro p q x hp hq ⟨s, hs0, hs1, rfl⟩
  simp only [Vec.dot] at *
  have : n.x * (p.x + s * (q.x - p.x)) + n.y * (p.y + s * (q.y - p.y)) =
    (1 - s) * (n.x * p.x + n.y * p.y) + s * (n.x * q.x + n.y * q.y) := by ring
  rw [this]
  nlinarith

/-- The nearest point of a convex set sees every other point at an obtuse angle. -/
theorem nearest_obtuse {S : Pts} (hS : IsConvex S) {p c : Vec ℝ} (hc : S c) (hn : ∀ q, S q → p.distance c ≤ p.distance q)
    {x : Vec ℝ} (hx : S x) : (p.sub c).dot (x.sub c) ≤ 0 := by
  by_contra hpos
  push Not at hpos
  obtain ⟨k, hk⟩ : ∃ k, k = (p.sub c).dot (x.sub c) := ⟨_, rfl⟩
  obtain ⟨l, hl⟩ : ∃ l, l = (x.sub c).dot (x.sub c) := ⟨_, rfl⟩
  rw [← hk] at hpos
  have hl0 : 0 ≤ l := by rw [hl]; exact Vec.dot_self_nonneg _
  have key : ∀ s : ℝ, 0 ≤ s → s ≤ 1 → 2 * s * k ≤ s ^ 2 * l := by
    intro s h0 h1
    have h := hn ⟨c.x + s * (x.x - c.x), c.y + s * (x.y - c.y)⟩ (hS c x _ hc hx ⟨s, h0, h1, rfl⟩)
    have h2 := pow_le_pow_left₀ (Vec.distance_nonneg p c) h 2
    rw [Vec.distance_sq, Vec.distance_sq] at h2
    rw [hk, hl]
    simp only [Vec.dot, Vec.sub]
    nlinarith
  by_cases hlk : l ≤ k
  · have := key 1 (by norm_num) (by norm_num); linarith
  · push Not at hlk
    have hlp : 0 < l := by linarith
    have := key (k / l) (by positivity) (by rw [div_le_one hlp]; linarith)
    have e1 : 2 * (k / l) * k = 2 * (k ^ 2 / l) := by field_simp
    have e2 : (k / l) ^ 2 * l = k ^ 2 / l := by field_simp
    rw [e1, e2] at this
    have : 0 < k ^ 2 / l := by positivity
    linarith

/-- The converse. -/
theorem nearest_of_obtuse {S : Pts} {p c : Vec ℝ} (h : ∀ x, S x → (p.sub c).dot (x.sub c) ≤ 0) {q : Vec ℝ} (hq : S q) :
    p.distance c ≤ p.distance q := by
  rw [Vec.le_distance_iff (Vec.distance_nonneg _ _), Vec.distance_sq]
  have := h q hq
  simp only [Vec.dot, Vec.sub] at this
  nlinarith [sq_nonneg (q.x - c.x), sq_nonneg (q.y - c.y)]

/-- Walking away from a convex set along the outward direction at its nearest point. -/
theorem distance_walk {S : Pts} {p c : Vec ℝ} (h : ∀ x, S x → (p.sub c).dot (x.sub c) ≤ 0) {k : ℝ} (hk : 0 ≤ k) {x : Vec ℝ}
    (hx : S x) : (c.add ((p.sub c).mult k)).distance c ≤ (c.add ((p.sub c).mult k)).distance x := by
  refine nearest_of_obtuse (S := S) (fun y hy => ?_) hx
  have := h y hy
  have e : ((c.add ((p.sub c).mult k)).sub c).dot (y.sub c) = k * (p.sub c).dot (y.sub c) := by
    simp only [Vec.dot, Vec.sub, Vec.add, Vec.mult]; ring
  rw [e]; exact mul_nonpos_of_nonneg_of_nonpos hk this

theorem distance_along (c p : Vec ℝ) (k : ℝ) : (c.add ((p.sub c).mult k)).distance c = |k| * p.distance c := by
  have : (c.add ((p.sub c).mult k)).distance c = ((p.sub c).mult k).length := by
    rw [Vec.distance]; congr 1; ext <;> simp [Vec.sub, Vec.add, Vec.mult]
  rw [this, Vec.length_mult, mul_comm]; rfl

/-- The answer of a point query for a thickened convex set, from the nearest point of the core. -/
theorem trueDistance_of_nearest {S : Pts} (hS : IsConvex S) {p c : Vec ℝ} (hc : S c)
    (hn : ∀ q, S q → p.distance c ≤ p.distance q) (hpc : p ≠ c) {r : ℝ} (hr : 0 ≤ r) (i : PointInfo ℝ)
    (hi : i.point = c.add ((p.sub c).mult (r / p.distance c))) (hd : i.distance = p.distance c - r) :
    TrueDistance (Thick S r) p i := by
  have hob : ∀ x, S x → (p.sub c).dot (x.sub c) ≤ 0 := fun x hx => nearest_obtuse hS hc hn hx
  have hd0 : 0 < p.distance c := lt_of_le_of_ne (Vec.distance_nonneg _ _) fun e => hpc (Vec.distance_eq_zero.1 e.symm)
  refine ⟨?_, ?_, ⟨⟨c, hc, ?_⟩, ?_⟩, ?_⟩
  · rintro q ⟨x, hx, hq⟩
    have h1 := hn x hx
    have h2 := Vec.distance_triangle p q x
    rw [hd]; linarith
  · intro q hq
    have h1 : r < q.distance c := by
      by_contra h; exact hq ⟨c, hc, not_lt.1 h⟩
    have h2 := Vec.distance_triangle q p c
    rw [hd, Vec.distance_comm p q]; linarith
  · rw [hi, distance_along, abs_of_nonneg (by positivity), div_mul_cancel₀ _ (ne_of_gt hd0)]
  · intro ε hε
    refine ⟨c.add ((p.sub c).mult ((r + ε) / p.distance c)), ?_, ?_⟩
    · rintro ⟨x, hx, hq⟩
      have h1 := distance_walk hob (k := (r + ε) / p.distance c) (by positivity) hx
      rw [distance_along, abs_of_nonneg (by positivity), div_mul_cancel₀ _ (ne_of_gt hd0)] at h1
      linarith
    · rw [hi, Vec.distance]
      have : (c.add ((p.sub c).mult ((r + ε) / p.distance c))).sub (c.add ((p.sub c).mult (r / p.distance c))) =
          (p.sub c).mult (ε / p.distance c) := by
        ext <;> simp only [Vec.sub, Vec.add, Vec.mult] <;> ring
      rw [this, Vec.length_mult, abs_of_nonneg (by positivity)]
      have : (p.sub c).length = p.distance c := rfl
      rw [this, mul_div_cancel₀ _ (ne_of_gt hd0)]
  · have e : p.distance i.point = ((p.sub c).mult (1 - r / p.distance c)).length := by
      rw [hi, Vec.distance]; congr 1
      ext <;> simp only [Vec.sub, Vec.add, Vec.mult] <;> ring
    have e2 : (p.sub c).length = p.distance c := rfl
    rw [e, Vec.length_mult, e2, hd, ← abs_of_pos hd0, ← abs_mul, abs_of_pos hd0]
    congr 1
    field_simp

end CP
