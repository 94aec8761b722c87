import Verif.Proofs.RaySeg

/-! # C45: segment queries against segment shapes -/

namespace CP
open GoFloat Set

/-- The point with parameter `w` on the infinite line through `p` and `q`. -/
def linePoint (p q : Vec ℝ) (w : ℝ) : Vec ℝ := ⟨p.x + w * (q.x - p.x), p.y + w * (q.y - p.y)⟩

theorem strip_turn {p q a : Vec ℝ} (hne : p ≠ q) {ρ : ℝ} (hρ : 0 ≤ ρ) (h : ∀ w, ρ < a.distance (linePoint p q w)) :
    ρ * q.distance p < |turn p q a| := by
  have hL0 : 0 < q.distance p := lt_of_le_of_ne (Vec.distance_nonneg _ _) fun e => hne (Vec.distance_eq_zero.1 e.symm).symm
  have hL2 := Vec.distance_sq q p
  obtain ⟨L, hL⟩ : ∃ L, L = q.distance p := ⟨_, rfl⟩
  rw [← hL] at hL0 hL2 ⊢
  obtain ⟨w, hw⟩ : ∃ w, w = ((q.x - p.x) * (a.x - p.x) + (q.y - p.y) * (a.y - p.y)) / L ^ 2 := ⟨_, rfl⟩
  have hwL : w * L ^ 2 = (q.x - p.x) * (a.x - p.x) + (q.y - p.y) * (a.y - p.y) := by
    rw [hw, div_mul_cancel₀ _ (by positivity)]
  have hd : a.distance (linePoint p q w) * L = |turn p q a| := by
    rw [← abs_of_nonneg (mul_nonneg (Vec.distance_nonneg _ _) hL0.le), ← sq_eq_sq_iff_abs_eq_abs, mul_pow, Vec.distance_sq]
    simp only [turn, linePoint]
    have e1 : ((a.x - (p.x + w * (q.x - p.x))) ^ 2 + (a.y - (p.y + w * (q.y - p.y))) ^ 2) =
      (a.x - p.x) ^ 2 + (a.y - p.y) ^ 2 - 2 * w * (w * L ^ 2) + w ^ 2 * L ^ 2 := by rw [hwL, hL2]; ring
    have e2 : ((a.x - p.x) ^ 2 + (a.y - p.y) ^ 2 - 2 * w * (w * L ^ 2) + w ^ 2 * L ^ 2) * L ^ 2 =
      ((a.x - p.x) ^ 2 + (a.y - p.y) ^ 2) * L ^ 2 - (w * L ^ 2) ^ 2 := by ring
    rw [e1, e2, hwL, hL2]; ring
  rw [← hd]
  exact mul_lt_mul_of_pos_right (h w) hL0

/-- From a start farther from the line than the radii, for a normal of length 1 or without radii. -/
theorem segment_first (s : Segment ℝ) (hr : 0 ≤ s.r) (hne : s.ta ≠ s.tb) {k : ℝ} (hk : k ≠ 0) (hn : s.tn = (s.tb.sub s.ta).rperp.mult k)
    {a b : Vec ℝ} (hab : a ≠ b) {radius : ℝ} (hrad : 0 ≤ radius) (hu : s.r + radius = 0 ∨ |k| * s.tb.distance s.ta = 1)
    (hout : ∀ w, s.r + radius < a.distance (linePoint s.ta s.tb w)) :
    FirstContactBeforeEnd (Thick (OnSegment s.ta s.tb) s.r) a b radius (shapeSegmentQuery (s.pointQuery a) (s.segmentQuery a b radius) a b radius) := by
  have hρ : 0 ≤ s.r + radius := by linarith
  have cc : contacts (Thick (OnSegment s.ta s.tb) s.r) a b radius = contacts (OnSegment s.ta s.tb) a b (s.r + radius) := by
    simp only [contacts]; rw [thick_thick _ hr hrad]
  refine shapeSegmentQuery_of hrad _ (C30_signed_segment s hr hne a) _ _ ?_ ?_
  · intro h0 i hi ha
    exact ⟨fun _ => by rw [ha]; exact ⟨h0, fun t ht => ht.1⟩, fun h => by rw [hi] at h; cases h⟩
  · intro ho
    obtain ⟨k1, k2⟩ := seg_query s hne hk hn hab hρ hu (strip_turn hne hρ hout)
    refine ⟨fun hh => ?_, fun hh => ?_⟩
    · rw [cc]; exact (k1 hh).1
    · rw [cc]; obtain ⟨k3, k4⟩ := k2 hh
      refine ⟨?_, ?_, k4⟩ <;> rw [k3] <;> rfl

/-- **C45** for segment shapes with a radius: with a normal of length 1 on either side and from a start that is farther from the
line of the segment than the radii, the answer is the first contact, which may be overlooked only if it is at the very end of
the ray. -/
theorem C45_segment (s : Segment ℝ) (hr : 0 ≤ s.r) (hne : s.ta ≠ s.tb)
    (hn : s.tn = (s.tb.sub s.ta).rperp.mult (1 / s.tb.distance s.ta) ∨ s.tn = (s.tb.sub s.ta).perp.mult (1 / s.tb.distance s.ta))
    (a b : Vec ℝ) (hab : a ≠ b) (radius : ℝ) (hrad : 0 ≤ radius) (hout : ∀ w, s.r + radius < a.distance (linePoint s.ta s.tb w)) :
    FirstContactBeforeEnd (Thick (OnSegment s.ta s.tb) s.r) a b radius (shapeSegmentQuery (s.pointQuery a) (s.segmentQuery a b radius) a b radius) := by
  have hL0 : 0 < s.tb.distance s.ta := lt_of_le_of_ne (Vec.distance_nonneg _ _) fun e => hne (Vec.distance_eq_zero.1 e.symm).symm
  rcases hn with hn | hn
  · refine segment_first s hr hne (one_div_pos.2 hL0).ne' hn hab hrad (.inr ?_) hout
    rw [abs_of_pos (one_div_pos.2 hL0), one_div, inv_mul_cancel₀ hL0.ne']
  · refine segment_first s hr hne (k := -(1 / s.tb.distance s.ta)) (neg_ne_zero.2 (one_div_pos.2 hL0).ne') ?_ hab hrad (.inr ?_) hout
    · rw [hn]; ext <;> simp only [Vec.mult, Vec.perp, Vec.rperp] <;> ring
    · rw [abs_neg, abs_of_pos (one_div_pos.2 hL0), one_div, inv_mul_cancel₀ hL0.ne']

/-- **C45** for thin segment shapes and thin rays: the shape made by `NewSegment` or given its ends by `SetEndpoints` and placed
by its body answers from every start that is not on its line with the first contact, which may be overlooked only if it is
at the very end of the ray. -/
theorem C45_segment_thin (s : Segment ℝ) (p q : Vec ℝ) (hpq : p ≠ q) (hs : s = Segment.new p q 0 ∨ ∃ s0 : Segment ℝ, s0.r = 0 ∧ s = s0.setEndpoints p q)
    (t : Transform ℝ) (ht : t.IsRigid) (a b : Vec ℝ) (hab : a ≠ b) (hout : ∀ w, a ≠ linePoint (t.point p) (t.point q) w) :
    FirstContactBeforeEnd (t.image s.pts) a b 0 (shapeSegmentQuery ((s.cacheData t).1.pointQuery a) ((s.cacheData t).1.segmentQuery a b 0) a b 0) := by
  rw [C30_segment_world s t ht]
  have hr : s.r = 0 := by rcases hs with rfl | ⟨s0, h0, rfl⟩; exacts [rfl, h0]
  have hsa : s.a = p := by rcases hs with rfl | ⟨s0, h0, rfl⟩ <;> rfl
  have hsb : s.b = q := by rcases hs with rfl | ⟨s0, h0, rfl⟩ <;> rfl
  have hta : (s.cacheData t).1.ta = t.point p := by rw [← hsa]; rfl
  have htb : (s.cacheData t).1.tb = t.point q := by rw [← hsb]; rfl
  have hcr : (s.cacheData t).1.r = 0 := hr
  have hlen : 0 ≤ (q.sub p).length := by simp only [Vec.length, sqrt_real]; exact Real.sqrt_nonneg _
  obtain ⟨c, hc⟩ : ∃ c : ℝ, c = 1 / ((q.sub p).length + lit (1 / 10 ^ 15)) := ⟨_, rfl⟩
  have hc0 : 0 < c := by rw [hc, lit_real]; have : (0 : ℝ) < ((1 / 10 ^ 15 : ℚ) : ℝ) := by norm_num
                         exact one_div_pos.2 (by linarith)
  have hn : ∃ k, k ≠ 0 ∧ (s.cacheData t).1.tn = ((t.point q).sub (t.point p)).rperp.mult k := by
    obtain ⟨h1, h2, h3⟩ := ht
    rcases hs with rfl | ⟨s0, h0, rfl⟩
    · refine ⟨c, hc0.ne', ?_⟩
      rw [hc]
      ext <;> simp only [Segment.cacheData, Segment.new, Transform.vect, Transform.point, Vec.normalize, Vec.mult, Vec.rperp, Vec.sub, h2, h3] <;> ring
    · refine ⟨-c, (neg_neg_of_pos hc0).ne, ?_⟩
      rw [hc]
      ext <;> simp only [Segment.cacheData, Segment.setEndpoints, Transform.vect, Transform.point, Vec.normalize, Vec.mult, Vec.rperp, Vec.perp, Vec.sub, h2, h3] <;> ring
  obtain ⟨k, hk, hn⟩ := hn
  rw [← hta, ← htb] at hn hout
  have hne : (s.cacheData t).1.ta ≠ (s.cacheData t).1.tb := by rw [hta, htb]; exact fun e => hpq (ht.inj e)
  have := segment_first (s.cacheData t).1 hcr.ge hne hk hn hab le_rfl (.inl (by rw [hcr, add_zero])) (fun w => by
    rw [hcr, add_zero]
    exact lt_of_le_of_ne (Vec.distance_nonneg _ _) fun e => hout w (Vec.distance_eq_zero.1 e.symm))
  exact this

/-- The ray of the examples: from (3, -4) to (3, 4), across the segment from (0,0) to (10,0). -/
example : ∀ w, (⟨3, -4⟩ : Vec ℝ) ≠ linePoint (Transform.identity.point ⟨0, 0⟩) (Transform.identity.point ⟨10, 0⟩) w := by
  intro w h
  have := congrArg Vec.y h
  simp [linePoint, Transform.identity, Transform.point] at this

/-- With a radius: the segment from (0,0) to (10,0) with the radius 1 and its unit normal, seen from (3, -4). -/
example : ∃ s : Segment ℝ, s.r = 1 ∧ s.ta ≠ s.tb ∧ s.tn = (s.tb.sub s.ta).rperp.mult (1 / s.tb.distance s.ta) ∧
    ∀ w, s.r + 1 < (⟨3, -4⟩ : Vec ℝ).distance (linePoint s.ta s.tb w) := by
  refine ⟨⟨⟨0, 0⟩, ⟨10, 0⟩, ⟨0, -1⟩, ⟨0, 0⟩, ⟨10, 0⟩, ⟨0, -1⟩, 1, ⟨0, 0⟩, ⟨0, 0⟩⟩, rfl, by simp, ?_, fun w => ?_⟩
  · have : (⟨10, 0⟩ : Vec ℝ).distance ⟨0, 0⟩ = 10 := by
      have h := Vec.distance_sq ⟨10, 0⟩ ⟨0, 0⟩
      have h0 := Vec.distance_nonneg (⟨10, 0⟩ : Vec ℝ) ⟨0, 0⟩
      simp only at h
      nlinarith
    simp only [this]
    ext <;> simp [Vec.sub, Vec.rperp, Vec.mult]
  · have : (4 : ℝ) ≤ (⟨3, -4⟩ : Vec ℝ).distance (linePoint ⟨0, 0⟩ ⟨10, 0⟩ w) := by
      rw [Vec.le_distance_iff (by norm_num)]
      simp only [linePoint]
      nlinarith [sq_nonneg (3 - (0 + w * (10 - 0)))]
    simp only
    linarith

/-- **A thin ray along the line of a thin segment misses it**, although it touches it from one half of its length on. -/
theorem C45_segment_collinear_violated :
    let s := ((Segment.new ⟨0, 0⟩ ⟨10, 0⟩ 0).cacheData Transform.identity).1
    (1 / 2 : ℝ) ∈ contacts (Thick (OnSegment s.ta s.tb) s.r) ⟨-5, 0⟩ ⟨5, 0⟩ 0 ∧
    (shapeSegmentQuery (s.pointQuery ⟨-5, 0⟩) (s.segmentQuery ⟨-5, 0⟩ ⟨5, 0⟩ 0) ⟨-5, 0⟩ ⟨5, 0⟩ 0).hit = false := by
  intro s
  have hta : s.ta = ⟨0, 0⟩ := by simp [s, Segment.cacheData, Segment.new, Transform.identity, Transform.point]
  have htb : s.tb = ⟨10, 0⟩ := by simp [s, Segment.cacheData, Segment.new, Transform.identity, Transform.point]
  have hr : s.r = 0 := rfl
  have hx : s.tn.x = 0 := by
    simp [s, Segment.cacheData, Segment.new, Transform.identity, Transform.vect, Vec.normalize, Vec.rperp, Vec.mult, Vec.sub]
  have hne : s.ta ≠ s.tb := by rw [hta, htb]; simp
  have hsd := C30_signed_segment s hr.ge hne ⟨-5, 0⟩
  rw [hta, htb, hr] at hsd ⊢
  constructor
  · exact ⟨by norm_num, by norm_num, ⟨along ⟨-5, 0⟩ ⟨5, 0⟩ (1 / 2), ⟨⟨0, 0⟩, OnSegment.left _ _, by rw [Vec.distance_le_iff le_rfl]; simp only [along]; norm_num⟩, by rw [Vec.distance_self]⟩⟩
  · have hd : ¬ (s.pointQuery ⟨-5, 0⟩).distance ≤ 0 := by
      rw [hsd.le_iff le_rfl]
      rintro ⟨x, ⟨y, ⟨w, w0, w1, rfl⟩, h1⟩, h2⟩
      have e2 := Vec.distance_eq_zero.1 (le_antisymm h2 (Vec.distance_nonneg _ _))
      have e1 := Vec.distance_eq_zero.1 (le_antisymm h1 (Vec.distance_nonneg _ _))
      rw [← e2] at e1
      have := congrArg Vec.x e1
      simp only at this
      linarith
    simp only [shapeSegmentQuery, if_neg hd, Segment.segmentQuery, hta, htb, hr]
    simp [Vec.dot, Vec.cross, Vec.sub, Vec.add, Vec.mult, Vec.neg, hx, SegHit.blank]

end CP
