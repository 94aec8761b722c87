import Verif.Props.Shapes

/-! # C45: segment queries against one shape -/

namespace CP
open GoFloat

/-- The point at the fraction `t` of the way from `a` to `b`. -/
def along (a b : Vec ℝ) (t : ℝ) : Vec ℝ := ⟨a.x + t * (b.x - a.x), a.y + t * (b.y - a.y)⟩

/-- The fractions of the segment at which a disc of the given radius moved along it touches the set. -/
def contacts (S : Pts) (a b : Vec ℝ) (radius : ℝ) : Set ℝ := { t | 0 ≤ t ∧ t ≤ 1 ∧ Thick S radius (along a b t) }

/-- What a segment query should answer: a hit exactly if there is a contact, and then the first one. -/
structure FirstContact (S : Pts) (a b : Vec ℝ) (radius : ℝ) (i : SegHit ℝ) : Prop where
  hit : i.hit = true ↔ (contacts S a b radius).Nonempty
  first : i.hit = true → IsLeast (contacts S a b radius) i.alpha
  miss : i.hit = false → i.alpha = 1 ∧ i.point = b

theorem lerp_along (a b : Vec ℝ) (t : ℝ) : a.lerp b t = along a b t := by
  ext <;> simp only [Vec.lerp, Vec.add, Vec.mult, along] <;> ring

/-- The quadratic behind `CircleSegmentQuery`: squared distance to the centre along the segment. -/
theorem along_distance_sq (c a b : Vec ℝ) (t : ℝ) :
    (along a b t).distance c ^ 2 =
      ((b.x - a.x) ^ 2 + (b.y - a.y) ^ 2) * t ^ 2 + 2 * ((a.x - c.x) * (b.x - a.x) + (a.y - c.y) * (b.y - a.y)) * t +
      ((a.x - c.x) ^ 2 + (a.y - c.y) ^ 2) := by
  rw [Vec.distance_sq]; simp only [along]; ring

/-- The least root of a quadratic that is positive at 0. -/
theorem least_root {A B C : ℝ} (hA : 0 < A) (hC : 0 < C) (t : ℝ) :
    A * t ^ 2 + 2 * B * t + C ≤ 0 → 0 ≤ t → 0 ≤ B * B - A * C ∧ (-B - Real.sqrt (B * B - A * C)) / A ≤ t ∧
      0 ≤ (-B - Real.sqrt (B * B - A * C)) / A := by
  intro h ht
  have hdet : 0 ≤ B * B - A * C := by nlinarith [sq_nonneg (A * t + B)]
  obtain ⟨S, hS⟩ : ∃ S, S = Real.sqrt (B * B - A * C) := ⟨_, rfl⟩
  have hS0 : 0 ≤ S := by rw [hS]; exact Real.sqrt_nonneg _
  have hS2 : S * S = B * B - A * C := by rw [hS]; exact Real.mul_self_sqrt hdet
  rw [← hS]
  have habs : |A * t + B| ≤ S := by
    rw [hS]
    refine Real.le_sqrt_of_sq_le ?_
    rw [sq_abs]; nlinarith
  have h1 := (abs_le.1 habs)
  refine ⟨hdet, ?_, ?_⟩
  · rw [div_le_iff₀ hA]; linarith [h1.1]
  · refine div_nonneg ?_ hA.le
    by_contra hneg
    push Not at hneg
    have hB : B < 0 := by
      by_contra hB
      push Not at hB
      nlinarith [mul_nonneg hA.le ht, mul_nonneg hB ht, mul_nonneg hA.le (sq_nonneg t)]
    have : -B < S := by linarith
    nlinarith [mul_pos hA hC]

/-- **C45** for circles (the class method, from a start outside): the first contact. -/
theorem circleSegmentQuery_first (c : Vec ℝ) (r1 : ℝ) (a b : Vec ℝ) (r2 : ℝ) (hr : 0 ≤ r1 + r2) (hab : a ≠ b)
    (hout : r1 + r2 < a.distance c) (i0 : SegHit ℝ) :
    let i := circleSegmentQuery c r1 a b r2 i0
    (i = i0 ∧ (∀ t, 0 ≤ t → t ≤ 1 → r1 + r2 < (along a b t).distance c)) ∨
    (i.hit = true ∧ 0 ≤ i.alpha ∧ i.alpha ≤ 1 ∧ (along a b i.alpha).distance c = r1 + r2 ∧
      (∀ t, 0 ≤ t → (along a b t).distance c ≤ r1 + r2 → i.alpha ≤ t) ∧
      i.normal = ((along a b i.alpha).sub c).normalize ∧ i.point = (along a b i.alpha).sub (i.normal.mult r2)) := by
  obtain ⟨A, hA⟩ : ∃ A, A = (b.x - a.x) ^ 2 + (b.y - a.y) ^ 2 := ⟨_, rfl⟩
  obtain ⟨B, hB⟩ : ∃ B, B = (a.x - c.x) * (b.x - a.x) + (a.y - c.y) * (b.y - a.y) := ⟨_, rfl⟩
  obtain ⟨C, hC⟩ : ∃ C, C = (a.x - c.x) ^ 2 + (a.y - c.y) ^ 2 - (r1 + r2) ^ 2 := ⟨_, rfl⟩
  have hApos : 0 < A := by
    by_contra h
    push Not at h
    rw [hA] at h
    have h1 : b.x - a.x = 0 := by nlinarith [sq_nonneg (b.x - a.x), sq_nonneg (b.y - a.y)]
    have h2 : b.y - a.y = 0 := by nlinarith [sq_nonneg (b.x - a.x), sq_nonneg (b.y - a.y)]
    exact hab (by ext <;> linarith)
  have hCpos : 0 < C := by
    have h1 := Vec.distance_sq a c
    have : (r1 + r2) ^ 2 < a.distance c ^ 2 := by nlinarith
    rw [hC]; linarith
  have hquad : ∀ t, (along a b t).distance c ^ 2 - (r1 + r2) ^ 2 = A * t ^ 2 + 2 * B * t + C := by
    intro t; rw [along_distance_sq, hA, hB, hC]; ring
  have hle : ∀ t, (along a b t).distance c ≤ r1 + r2 ↔ A * t ^ 2 + 2 * B * t + C ≤ 0 := by
    intro t
    rw [← hquad]
    constructor
    · intro h; have := pow_le_pow_left₀ (Vec.distance_nonneg _ c) h 2; linarith
    · intro h; exact (abs_le_of_sq_le_sq' (by linarith) hr).2
  have eqa : (a.sub c).dot (a.sub c) - lit 2 * (a.sub c).dot (b.sub c) + (b.sub c).dot (b.sub c) = A := by
    rw [hA]; simp only [Vec.dot, Vec.sub, lit_real]; push_cast; ring
  have eqb : (a.sub c).dot (b.sub c) - (a.sub c).dot (a.sub c) = B := by
    rw [hB]; simp only [Vec.dot, Vec.sub]; ring
  have eqc : (a.sub c).dot (a.sub c) - (r1 + r2) * (r1 + r2) = C := by
    rw [hC]; simp only [Vec.dot, Vec.sub]; ring
  simp only [circleSegmentQuery, eqa, eqb, eqc, sqrt_real]
  by_cases hdet : 0 ≤ B * B - A * C
  · rw [if_pos hdet]
    obtain ⟨T, hT⟩ : ∃ T, T = (-B - Real.sqrt (B * B - A * C)) / A := ⟨_, rfl⟩
    rw [← hT]
    have hroot : A * T ^ 2 + 2 * B * T + C = 0 := by
      have hS2 := Real.mul_self_sqrt hdet
      have hAT : A * T = -B - Real.sqrt (B * B - A * C) := by rw [hT]; field_simp
      have : A * (A * T ^ 2 + 2 * B * T + C) = 0 := by
        have : A * (A * T ^ 2 + 2 * B * T + C) = (A * T + B) ^ 2 - (B * B - A * C) := by ring
        rw [this, hAT]; nlinarith
      exact (mul_eq_zero.1 this).resolve_left hApos.ne'
    by_cases h01 : 0 ≤ T ∧ T ≤ 1
    · rw [if_pos h01]
      right
      have hd : (along a b T).distance c = r1 + r2 := by
        have h1 := hquad T
        rw [hroot] at h1
        exact (pow_left_inj₀ (Vec.distance_nonneg _ _) hr two_ne_zero).1 (by linarith)
      refine ⟨rfl, h01.1, h01.2, hd, ?_, ?_, ?_⟩
      · intro t ht h
        rw [hT]
        exact (least_root hApos hCpos t ((hle t).1 h) ht).2.1
      · simp only
        congr 1
        ext <;> simp only [Vec.lerp, Vec.add, Vec.mult, Vec.sub, along] <;> ring
      · simp only [lerp_along]
    · rw [if_neg h01]
      left
      refine ⟨rfl, fun t h0 h1 => ?_⟩
      by_contra hno
      push Not at hno
      obtain ⟨-, k1, k2⟩ := least_root hApos hCpos t ((hle t).1 hno) h0
      rw [← hT] at k1 k2
      exact h01 ⟨k2, by linarith⟩
  · rw [if_neg hdet]
    left
    refine ⟨rfl, fun t h0 h1 => ?_⟩
    by_contra hno
    push Not at hno
    exact hdet (least_root hApos hCpos t ((hle t).1 hno) h0).1

/-- Growing twice. -/
theorem thick_thick (S : Pts) {r r' : ℝ} (hr : 0 ≤ r) (hr' : 0 ≤ r') : Thick (Thick S r) r' = Thick S (r + r') := by
  funext p
  apply propext
  constructor
  · rintro ⟨q, ⟨x, hx, h1⟩, h2⟩
    exact ⟨x, hx, by have := Vec.distance_triangle p q x; linarith⟩
  · rintro ⟨x, hx, h⟩
    by_cases hle : p.distance x ≤ r
    · exact ⟨p, ⟨x, hx, hle⟩, by rw [Vec.distance_self]; exact hr'⟩
    · push Not at hle
      have hpos : 0 < p.distance x := lt_of_le_of_lt hr hle
      refine ⟨x.add ((p.sub x).mult (r / p.distance x)), ⟨x, hx, ?_⟩, ?_⟩
      · rw [distance_along, abs_of_nonneg (by positivity), div_mul_cancel₀ _ hpos.ne']
      · have e : p.distance (x.add ((p.sub x).mult (r / p.distance x))) = ((p.sub x).mult (1 - r / p.distance x)).length := by
          rw [Vec.distance]; congr 1
          ext <;> simp only [Vec.sub, Vec.add, Vec.mult] <;> ring
        have e2 : (p.sub x).length = p.distance x := rfl
        have h1 : 0 ≤ 1 - r / p.distance x := by rw [sub_nonneg, div_le_one hpos]; exact hle.le
        rw [e, Vec.length_mult, e2, abs_of_nonneg h1, mul_sub, mul_one, mul_div_cancel₀ _ hpos.ne']
        linarith

/-- **C45**: `SegmentQuery` of a circle reports exactly the contacts of a disc of radius `radius` moved from `a` to `b`,
and the first one. -/
theorem C45_circle (s : Circle ℝ) (hr : 0 ≤ s.r) (a b : Vec ℝ) (hab : a ≠ b) (radius : ℝ) (hrad : 0 ≤ radius) :
    FirstContact (Thick (fun p => p = s.tc) s.r) a b radius
      (shapeSegmentQuery (s.pointQuery a) (s.segmentQuery a b radius) a b radius) := by
  have hcon : ∀ t, Thick (Thick (fun p => p = s.tc) s.r) radius (along a b t) ↔ (along a b t).distance s.tc ≤ s.r + radius := by
    intro t; rw [thick_thick _ hr hrad]; simp only [Thick, exists_eq_left]
  have h0 : along a b 0 = a := by ext <;> simp [along]
  simp only [shapeSegmentQuery]
  by_cases hin : (s.pointQuery a).distance ≤ radius
  · rw [if_pos hin]
    have hd : (s.pointQuery a).distance = a.distance s.tc - s.r := rfl
    have hmem : (0 : ℝ) ∈ contacts (Thick (fun p => p = s.tc) s.r) a b radius := by
      refine ⟨le_refl _, by norm_num, ?_⟩
      rw [hcon, h0]; linarith
    exact ⟨⟨fun _ => ⟨0, hmem⟩, fun _ => rfl⟩, fun _ => ⟨hmem, fun t ht => ht.1⟩, fun h => by simp at h⟩
  · rw [if_neg hin]
    have hd : (s.pointQuery a).distance = a.distance s.tc - s.r := rfl
    have hout : s.r + radius < a.distance s.tc := by push Not at hin; linarith
    rcases circleSegmentQuery_first s.tc s.r a b radius (by linarith) hab hout (SegHit.blank b) with ⟨he, hno⟩ | ⟨hh, k0, k1, k2, k3, -, -⟩
    · have he' : s.segmentQuery a b radius (SegHit.blank b) = SegHit.blank b := he
      rw [he']
      refine ⟨⟨fun h => by simp [SegHit.blank] at h, ?_⟩, fun h => by simp [SegHit.blank] at h, fun _ => ⟨rfl, rfl⟩⟩
      rintro ⟨t, t0, t1, ht⟩
      exact absurd ((hcon t).1 ht) (not_le.2 (hno t t0 t1))
    · have hmem : (s.segmentQuery a b radius (SegHit.blank b)).alpha ∈ contacts (Thick (fun p => p = s.tc) s.r) a b radius :=
        ⟨k0, k1, (hcon _).2 (le_of_eq k2)⟩
      refine ⟨⟨fun _ => ⟨_, hmem⟩, fun _ => hh⟩, fun _ => ⟨hmem, fun t ht => k3 t ht.1 ((hcon t).1 ht.2.2)⟩, fun h => ?_⟩
      have hh' : (s.segmentQuery a b radius (SegHit.blank b)).hit = true := hh
      rw [hh'] at h; simp at h

/-- When the start is already in contact, `Point` is not a contact point but stays at the end `b`. -/
theorem C45_start_inside_point (n : PointInfo ℝ) (q : SegHit ℝ → SegHit ℝ) (a b : Vec ℝ) (radius : ℝ) (h : n.distance ≤ radius) :
    (shapeSegmentQuery n q a b radius).alpha = 0 ∧ (shapeSegmentQuery n q a b radius).point = b := by
  simp only [shapeSegmentQuery, if_pos h, SegHit.blank, and_self]

/-- The segment from (0,0) to (10,0) with radius 1, as made by `NewSegment` and updated with the identity. -/
noncomputable def capsule : Segment ℝ := ((Segment.new ⟨0, 0⟩ ⟨10, 0⟩ 1).cacheData Transform.identity).1

/-- **C45 does not hold for segment shapes**: a ray that starts beside the end cap, between the two long sides, and leaves
through a long side. The answer is the way out (about one half), although the shape is already touched at one quarter. -/
theorem C45_segment_violated :
    (1 / 4 : ℝ) ∈ contacts (Thick (OnSegment capsule.ta capsule.tb) capsule.r) ⟨-2, -1 / 2⟩ ⟨4, -3 / 2⟩ 0 ∧
    (shapeSegmentQuery (capsule.pointQuery ⟨-2, -1 / 2⟩) (capsule.segmentQuery ⟨-2, -1 / 2⟩ ⟨4, -3 / 2⟩ 0) ⟨-2, -1 / 2⟩ ⟨4, -3 / 2⟩ 0).alpha
      > 2 / 5 := by
  have hta : capsule.ta = ⟨0, 0⟩ := by
    simp [capsule, Segment.cacheData, Segment.new, Transform.identity, Transform.point]
  have htb : capsule.tb = ⟨10, 0⟩ := by
    simp [capsule, Segment.cacheData, Segment.new, Transform.identity, Transform.point]
  have hr : capsule.r = 1 := rfl
  have hk : ∃ k : ℝ, capsule.tn = ⟨0, -k⟩ ∧ 99 / 100 < k ∧ k < 1 := by
    refine ⟨10 / (10 + 1 / 10 ^ 15), ?_, by norm_num, by norm_num⟩
    have h10 : Real.sqrt (10 * 10) = 10 := by
      rw [show (10 : ℝ) * 10 = 10 ^ 2 by norm_num]; exact Real.sqrt_sq (by norm_num)
    simp only [capsule, Segment.cacheData, Segment.new, Transform.identity, Transform.vect, Vec.normalize, Vec.rperp, Vec.mult,
      Vec.sub, Vec.length, Vec.dot, sub_zero, sqrt_real, mul_zero, add_zero, h10, lit_real]
    ext
    · simp
    · simp only; push_cast; ring
  obtain ⟨k, hn, hk1, hk2⟩ := hk
  constructor
  · rw [hta, htb, hr]
    refine ⟨by norm_num, by norm_num, ⟨_, ⟨⟨0, 0⟩, OnSegment.left _ _, ?_⟩, by rw [Vec.distance_self]⟩⟩
    rw [Vec.distance_le_iff (by norm_num)]
    simp only [along]; norm_num
  · have hdist : ¬ (capsule.pointQuery ⟨-2, -1 / 2⟩).distance ≤ 0 := by
      have hne : capsule.ta ≠ capsule.tb := by rw [hta, htb]; simp
      have hcl := (C30_closest ⟨-2, -1 / 2⟩ capsule.ta capsule.tb hne).1
      have hd : (capsule.pointQuery ⟨-2, -1 / 2⟩).distance =
        (⟨-2, -1 / 2⟩ : Vec ℝ).distance ((⟨-2, -1 / 2⟩ : Vec ℝ).closestPointOnSegment capsule.ta capsule.tb) - 1 := rfl
      rw [hd]
      generalize ((⟨-2, -1 / 2⟩ : Vec ℝ).closestPointOnSegment capsule.ta capsule.tb) = z at hcl
      rw [hta, htb] at hcl
      obtain ⟨s, s0, s1, rfl⟩ := hcl
      have h2 : (2 : ℝ) ≤ (⟨-2, -1 / 2⟩ : Vec ℝ).distance ⟨0 + s * (10 - 0), 0 + s * (0 - 0)⟩ := by
        rw [Vec.le_distance_iff (by norm_num)]
        nlinarith
      simp only at h2 ⊢
      linarith
    simp only [shapeSegmentQuery, if_neg hdist, Segment.segmentQuery, hta, htb, hr, hn]
    have e1 : (((⟨0, 0⟩ : Vec ℝ).sub ⟨-2, -1 / 2⟩).dot ⟨0, -k⟩) = -(k / 2) := by
      simp only [Vec.sub, Vec.dot]; ring
    have hneg : ¬ (0 < -(k / 2)) := by linarith
    simp only [e1, if_neg hneg]
    have c1 : ((⟨4, -3 / 2⟩ : Vec ℝ).sub ⟨-2, -1 / 2⟩).cross ((⟨0, 0⟩ : Vec ℝ).add (((⟨0, -k⟩ : Vec ℝ).mult (1 + 0)).sub ⟨-2, -1 / 2⟩)) =
        6 * (1 / 2 - k) + 2 := by simp only [Vec.sub, Vec.cross, Vec.add, Vec.mult]; ring
    have c2 : ((⟨4, -3 / 2⟩ : Vec ℝ).sub ⟨-2, -1 / 2⟩).cross ((⟨10, 0⟩ : Vec ℝ).add (((⟨0, -k⟩ : Vec ℝ).mult (1 + 0)).sub ⟨-2, -1 / 2⟩)) =
        6 * (1 / 2 - k) + 12 := by simp only [Vec.sub, Vec.cross, Vec.add, Vec.mult]; ring
    rw [c1, c2, if_pos (by nlinarith)]
    have b1 : ((⟨4, -3 / 2⟩ : Vec ℝ).sub ⟨-2, -1 / 2⟩).dot ⟨0, -k⟩ = k := by simp only [Vec.sub, Vec.dot]; ring
    rw [b1, if_pos (by nlinarith)]
    have : -(-(k / 2) + (1 + 0)) / (-(-(k / 2) + (1 + 0)) - (k - (-(k / 2) + (1 + 0)))) = (1 - k / 2) / k := by
      have hden : (-(-(k / 2) + (1 + 0)) - (k - (-(k / 2) + (1 + 0)))) = -k := by ring
      rw [hden, neg_div_neg_eq]; congr 1; ring
    simp only [this]
    rw [gt_iff_lt, lt_div_iff₀ (by linarith)]
    linarith

end CP
