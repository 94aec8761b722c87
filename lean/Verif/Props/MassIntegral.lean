import Verif.Proofs.Polar
import Verif.Props.Queries

/-! # C47: the mass functions compute the integrals they stand for -/

namespace CP
open MeasureTheory Set Int
open scoped Pointwise

theorem dist_eq (a b : Vec ℝ) : a.distance b = √((a.x - b.x) ^ 2 + (a.y - b.y) ^ 2) := by
  show √((a.x - b.x) * (a.x - b.x) + (a.y - b.y) * (a.y - b.y)) = _
  congr 1; ring

theorem regionArea_eq (S : Pts) : regionArea S = ar S.region := by
  rw [regionArea, setIntegral_const, ar, Measure.real]; simp

theorem thick_region (S : Pts) {r : ℝ} (hr : 0 ≤ r) : (Thick S r).region = S.region + disc r := by
  ext p
  constructor
  · rintro ⟨q, hq, hd⟩
    refine ⟨(q.x, q.y), hq, (p.1 - q.x, p.2 - q.y), ?_, by simp⟩
    rw [dist_eq, Real.sqrt_le_left hr] at hd
    exact hd
  · rintro ⟨q, hq, w, hw, rfl⟩
    refine ⟨⟨q.1, q.2⟩, hq, ?_⟩
    rw [dist_eq, Real.sqrt_le_left hr]
    simpa [disc] using hw

/-- `AreaForPoly` is the area of the polygon and its rounded border: all points within `r` of the hull of the vertices. -/
theorem C47_poly_area {l : List (Vec ℝ)} (h : StrictlyConvex l) {r : ℝ} (hr : 0 ≤ r) :
    areaForPoly Real.pi l.length (vert l) r = regionArea (Thick (Hull fun p => p ∈ l) r) := by
  rw [regionArea_eq, thick_region _ hr, hull_list, poly_ar hr _ h.three h.fan, areaForPoly_eq, abs_of_nonneg hr, area2]
  have : edgeSum l.length (vert l) Vec.distance = edgeSum l.length (vert l) (fun a b => len (pr b - pr a)) := by
    refine Finset.sum_congr rfl fun i _ => ?_
    rw [dist_eq]
    simp only [len, pr, Prod.fst_sub, Prod.snd_sub]
    congr 1; ring
  rw [this]; ring

/-- `CentroidForPoly` is the centre of gravity of the polygon. -/
theorem C47_poly_centroid {l : List (Vec ℝ)} (h : StrictlyConvex l) :
    centroidForPoly l.length (vert l) = regionCentre (Hull fun p => p ∈ l) := by
  have h0 := area2_pos h
  rw [centroidForPoly_eq, regionCentre, regionArea, poly_one h, poly_fst h, poly_snd h]
  ext
  · simp only; field_simp; ring
  · simp only; field_simp; ring

theorem hull_shift (l : List (Vec ℝ)) (o : Vec ℝ) : Pts.shift (Hull fun p => p ∈ l) o = Hull fun p => p ∈ l.map (Vec.add · o) := by
  funext p
  apply propext
  constructor
  · intro hp
    have : ∀ q, Hull (fun p => p ∈ l) q → Hull (fun p => p ∈ l.map (Vec.add · o)) (q.add o) := by
      intro q hq
      induction hq with
      | pt h => exact .pt (List.mem_map_of_mem h)
      | mix _ _ h i1 i2 =>
        refine .mix i1 i2 ?_
        obtain ⟨s, s0, s1, rfl⟩ := h
        exact ⟨s, s0, s1, by ext <;> simp only [Vec.add] <;> ring⟩
    have := this _ hp
    simpa [Vec.add] using this
  · intro hp
    show Hull (fun p => p ∈ l) ⟨p.x - o.x, p.y - o.y⟩
    induction hp with
    | pt h =>
      obtain ⟨q, hq, rfl⟩ := List.mem_map.1 h
      have : (⟨(q.add o).x - o.x, (q.add o).y - o.y⟩ : Vec ℝ) = q := by ext <;> simp [Vec.add]
      rw [this]; exact .pt hq
    | mix _ _ h i1 i2 =>
      refine .mix i1 i2 ?_
      obtain ⟨s, s0, s1, rfl⟩ := h
      exact ⟨s, s0, s1, by ext <;> simp only <;> ring⟩

/-- `MomentForPoly` is the moment of inertia about the origin of the polygon moved by the offset. -/
theorem C47_poly_moment (m : ℝ) {l : List (Vec ℝ)} (h : StrictlyConvex l) (o : Vec ℝ) :
    momentForPoly m l.length (vert l) o = regionMoment m (Pts.shift (Hull fun p => p ∈ l) o) := by
  have h3 := h.three
  have hs : StrictlyConvex (l.map (Vec.add · o)) := by
    have := h.map (t := ⟨1, 0, 0, 1, o.x, o.y⟩) (by refine ⟨?_, ?_, ?_⟩ <;> norm_num)
    convert this using 2
    funext p; ext <;> simp [Vec.add, Transform.point]
  have hv : ∀ g, edgeSum l.length (fun i => (vert l i).add o) g = edgeSum (l.map (Vec.add · o)).length (vert (l.map (Vec.add · o))) g := by
    intro g
    rw [List.length_map]
    refine Finset.sum_congr rfl fun i hi => ?_
    have hi := Finset.mem_range.1 hi
    have hj : (i + 1) % l.length < l.length := Nat.mod_lt _ (by omega)
    rw [vert_eq _ i (by simpa using hi), vert_eq _ _ (by simpa using hj)]
    simp only
    rw [vert_eq l i hi, vert_eq l _ hj]
    simp
  have h0 := area2_pos hs
  rw [momentForPoly_eq m (by omega), hull_shift, regionMoment, regionArea, poly_one hs, poly_polar hs, area2, hv, hv, ← area2]
  field_simp
  ring

theorem onSegment_region (a b : Vec ℝ) : Pts.region (OnSegment a b) = segment ℝ (pr a) (pr b) := by
  ext p
  constructor
  · rintro ⟨s, s0, s1, h⟩
    refine ⟨1 - s, s, by linarith, s0, by ring, ?_⟩
    rw [Vec.mk.injEq] at h
    ext
    · simp only [pr, Prod.smul_mk, smul_eq_mul, Prod.mk_add_mk]; rw [h.1]; ring
    · simp only [pr, Prod.smul_mk, smul_eq_mul, Prod.mk_add_mk]; rw [h.2]; ring
  · rintro ⟨s', s, h1, h2, h3, rfl⟩
    refine ⟨s, h2, by linarith, ?_⟩
    have : s' = 1 - s := by linarith
    subst this
    simp only [pr, Prod.smul_mk, smul_eq_mul, Prod.mk_add_mk, Vec.mk.injEq]
    constructor <;> ring

/-- `AreaForSegment` is the area of the segment shape: all points within `r` of the segment. -/
theorem C47_segment_area (a b : Vec ℝ) {r : ℝ} (hr : 0 ≤ r) :
    areaForSegment Real.pi a b r = regionArea (Thick (OnSegment a b) r) := by
  rw [regionArea_eq, thick_region _ hr, onSegment_region, ar_capsule hr, areaForSegment, dist_eq, len]
  simp only [lit_real, pr, Prod.fst_sub, Prod.snd_sub]
  rw [show (b.x - a.x) ^ 2 + (b.y - a.y) ^ 2 = (a.x - b.x) ^ 2 + (a.y - b.y) ^ 2 by ring]
  push_cast; ring

theorem ring_region (c : Vec ℝ) (r1 r2 : ℝ) : (Ring c r1 r2).region = ringAt (pr c) (min r1 r2) (max r1 r2) := by
  ext p
  show (_ ≤ Vec.distance _ _ ∧ Vec.distance _ _ ≤ _) ↔ _
  rw [dist_eq]
  rfl

/-- `AreaForCircle` is the area of the ring between the two circles. -/
theorem C47_circle_area (c : Vec ℝ) {r1 r2 : ℝ} (h1 : 0 ≤ r1) (h2 : 0 ≤ r2) :
    areaForCircle Real.pi r1 r2 = regionArea (Ring c r1 r2) := by
  rw [regionArea, ring_region, ringAt_one _ (le_min h1 h2) min_le_max]
  rw [areaForCircle, fabs_real]
  rcases le_total r1 r2 with h | h
  · rw [min_eq_left h, max_eq_right h, abs_of_nonpos (by nlinarith)]; ring
  · rw [min_eq_right h, max_eq_left h, abs_of_nonneg (by nlinarith)]; ring

/-- `MomentForCircle` is the moment of inertia about the origin of the ring about the offset. -/
theorem C47_circle_moment (m : ℝ) (o : Vec ℝ) {r1 r2 : ℝ} (h1 : 0 ≤ r1) (h2 : 0 ≤ r2) (hne : r1 ≠ r2) :
    momentForCircle m r1 r2 o = regionMoment m (Ring o r1 r2) := by
  rw [regionMoment, regionArea, ring_region, ringAt_one _ (le_min h1 h2) min_le_max, ringAt_sq _ (le_min h1 h2) min_le_max]
  simp only [momentForCircle, lit_real, Vec.lengthSq, Vec.dot, pr]
  have hp := Real.pi_pos.ne'
  rcases lt_or_gt_of_ne hne with h | h
  · rw [min_eq_left h.le, max_eq_right h.le]
    have : r2 ^ 2 - r1 ^ 2 ≠ 0 := by nlinarith
    push_cast; field_simp; ring
  · rw [min_eq_right h.le, max_eq_left h.le]
    have : r1 ^ 2 - r2 ^ 2 ≠ 0 := by nlinarith
    push_cast; field_simp; ring

/-! ## Boxes -/

/-- The corners of a box, in the order of `NewBox2`. -/
def corners (bb : BB ℝ) : List (Vec ℝ) := [⟨bb.r, bb.b⟩, ⟨bb.r, bb.t⟩, ⟨bb.l, bb.t⟩, ⟨bb.l, bb.b⟩]

theorem corners_convex (bb : BB ℝ) (hw : bb.l < bb.r) (hh : bb.b < bb.t) : StrictlyConvex (corners bb) := by
  refine ⟨by simp [corners], ?_, ?_⟩
  · simp [corners, hw.ne, hw.ne', hh.ne, hh.ne']
  · intro e he v hv
    have hp := mul_pos (sub_pos.2 hw) (sub_pos.2 hh)
    simp only [corners, edges, pairsFrom, List.getLast?, List.getLast, List.mem_cons, List.not_mem_nil, or_false] at he hv
    rcases he with rfl | rfl | rfl | rfl <;> rcases hv with rfl | rfl | rfl | rfl <;>
      first
      | exact .inl rfl
      | exact .inr (.inl rfl)
      | (refine .inr (.inr ?_); simp only [turn]; nlinarith)

theorem corners_hull (bb : BB ℝ) (hw : bb.l < bb.r) (hh : bb.b < bb.t) : (Hull fun p => p ∈ corners bb) = bb.Mem := by
  funext p
  apply propext
  constructor
  · intro hp
    induction hp with
    | pt h =>
      simp only [corners, List.mem_cons, List.not_mem_nil, or_false] at h
      rcases h with rfl | rfl | rfl | rfl <;> simp [BB.Mem, hw.le, hh.le]
    | mix _ _ h i1 i2 =>
      obtain ⟨s, s0, s1, rfl⟩ := h
      obtain ⟨a1, a2, a3, a4⟩ := i1
      obtain ⟨b1, b2, b3, b4⟩ := i2
      refine ⟨?_, ?_, ?_, ?_⟩ <;> simp only <;> nlinarith
  · rintro ⟨h1, h2, h3, h4⟩
    rw [(corners_convex bb hw hh).hull_iff]
    intro e he
    have q1 := sub_pos.2 hw
    have q2 := sub_pos.2 hh
    simp only [corners, edges, pairsFrom, List.getLast?, List.getLast, List.mem_cons, List.not_mem_nil, or_false] at he
    rcases he with rfl | rfl | rfl | rfl <;> simp only [turn] <;> nlinarith

theorem vert_corners (bb : BB ℝ) (g : Vec ℝ → Vec ℝ → ℝ) : edgeSum (corners bb).length (vert (corners bb)) g = edgeSum 4 (boxVerts bb) g := by
  rw [edgeSum_box]
  simp [corners, vert, edgeSum, Finset.sum_range_succ]

/-- `MomentForBox2` is the moment of inertia of the box about the origin. -/
theorem C47_box2_moment (m : ℝ) (bb : BB ℝ) (hw : bb.l < bb.r) (hh : bb.b < bb.t) : momentForBox2 m bb = regionMoment m bb.Mem := by
  have hc := corners_convex bb hw hh
  rw [← C37_box_moment m bb hw hh, ← corners_hull bb hw hh, regionMoment, regionArea, poly_one hc, poly_polar hc,
    momentForPoly_eq m (by norm_num)]
  simp only [area2, vert_corners]
  have e : (fun i => (boxVerts bb i).add ⟨0, 0⟩) = boxVerts bb := by funext i; ext <;> simp [Vec.add]
  rw [e]
  have := area2_box bb
  rw [area2] at this
  rw [this]
  have h1 : bb.r - bb.l ≠ 0 := ne_of_gt (sub_pos.2 hw)
  have h2 : bb.t - bb.b ≠ 0 := ne_of_gt (sub_pos.2 hh)
  field_simp; ring

/-- `MomentForBox` is the moment of inertia of the box of this width and height about its centre. -/
theorem C47_box_moment (m : ℝ) {w h : ℝ} (hw : 0 < w) (hh : 0 < h) :
    momentForBox m w h = regionMoment m fun p => |p.x| ≤ w / 2 ∧ |p.y| ≤ h / 2 := by
  rw [← C37_box_moment_centred, C47_box2_moment _ _ (by simp only; linarith) (by simp only; linarith)]
  congr 1
  funext p
  simp only [BB.Mem, abs_le, eq_iff_iff]
  rw [neg_div, neg_div]; tauto

theorem box_area (bb : BB ℝ) (hw : bb.l < bb.r) (hh : bb.b < bb.t) : regionArea bb.Mem = (bb.r - bb.l) * (bb.t - bb.b) := by
  rw [← corners_hull bb hw hh, regionArea, poly_one (corners_convex bb hw hh), area2, vert_corners, ← area2, area2_box]; ring

/-! ## Segments -/

theorem rot_preserving {c s : ℝ} (h : c ^ 2 + s ^ 2 = 1) : MeasurePreserving (rot c s) volume volume := by
  have hd : LinearMap.det (rot c s) = 1 := by
    rw [rot, LinearMap.det_toLin, Matrix.det_fin_two_of]; linarith
  refine ⟨(LinearMap.continuous_of_finiteDimensional _).measurable, ?_⟩
  rw [Measure.map_linearMap_addHaar_eq_smul_addHaar _ (by rw [hd]; norm_num), hd]; simp

theorem rot_inj {c s : ℝ} (h : c ^ 2 + s ^ 2 = 1) : Function.Injective (rot c s) := by
  intro p q e
  rw [rot_apply, rot_apply, Prod.mk.injEq] at e
  ext
  · linear_combination c * e.1 - s * e.2 - (p.1 - q.1) * h
  · linear_combination s * e.1 + c * e.2 - (p.2 - q.2) * h

theorem rot_norm {c s : ℝ} (h : c ^ 2 + s ^ 2 = 1) (p : ℝ × ℝ) : (rot c s p).1 ^ 2 + (rot c s p).2 ^ 2 = p.1 ^ 2 + p.2 ^ 2 := by
  rw [rot_apply]; simp only; linear_combination (p.1 ^ 2 + p.2 ^ 2) * h

/-- `MomentForSegment` is the moment of inertia about the origin of the rectangle around the segment. -/
theorem C47_segment_moment (m : ℝ) {a b : Vec ℝ} (hab : a ≠ b) {r : ℝ} (hr : 0 < r) :
    momentForSegment m a b r = regionMoment m (RodBox a b r) := by
  obtain ⟨d, hd⟩ : ∃ d, d = a.distance b := ⟨_, rfl⟩
  have hd2 : d ^ 2 = (b.x - a.x) ^ 2 + (b.y - a.y) ^ 2 := by
    rw [hd, dist_eq, Real.sq_sqrt (by positivity)]; ring
  have hd0 : 0 < d := by
    have : 0 ≤ d := by rw [hd, dist_eq]; exact Real.sqrt_nonneg _
    refine lt_of_le_of_ne this fun e => hab ?_
    rw [← e] at hd2
    ext <;> nlinarith [sq_nonneg (b.x - a.x), sq_nonneg (b.y - a.y)]
  have hu : ((b.x - a.x) / d) ^ 2 + ((b.y - a.y) / d) ^ 2 = 1 := by field_simp; linarith
  obtain ⟨f, hf⟩ : ∃ f, f = rot ((b.x - a.x) / d) ((b.y - a.y) / d) := ⟨_, rfl⟩
  obtain ⟨c, hc⟩ : ∃ c, c = f ((a.x + b.x) / 2, (a.y + b.y) / 2) := ⟨_, rfl⟩
  obtain ⟨bb, hbb⟩ : ∃ bb : BB ℝ, bb = ⟨c.1 - (d / 2 + r), c.2 - r, c.1 + (d / 2 + r), c.2 + r⟩ := ⟨_, rfl⟩
  have hreg : (RodBox a b r).region = f ⁻¹' Pts.region bb.Mem := by
    ext p
    constructor
    · rintro ⟨s, t, h1, h2, h3⟩
      rw [Vec.mk.injEq, ← hd] at h3
      rw [← hd] at h1
      have e1 : (f p).1 = c.1 + s := by
        rw [hc, hf, rot_apply, rot_apply]; simp only
        rw [h3.1, h3.2]; field_simp
        linear_combination -2 * s * hd2
      have e2 : (f p).2 = c.2 + t := by
        rw [hc, hf, rot_apply, rot_apply]; simp only
        rw [h3.1, h3.2]; field_simp
        linear_combination -2 * t * hd2
      rw [abs_le] at h1 h2
      show bb.l ≤ (f p).1 ∧ (f p).1 ≤ bb.r ∧ bb.b ≤ (f p).2 ∧ (f p).2 ≤ bb.t
      rw [e1, e2, hbb]
      exact ⟨by simp only; linarith, by simp only; linarith, by simp only; linarith, by simp only; linarith⟩
    · intro hp
      have hp' : bb.l ≤ (f p).1 ∧ (f p).1 ≤ bb.r ∧ bb.b ≤ (f p).2 ∧ (f p).2 ≤ bb.t := hp
      rw [hbb] at hp'
      simp only at hp'
      refine ⟨(f p).1 - c.1, (f p).2 - c.2, ?_, ?_, ?_⟩
      · rw [← hd, abs_le]; constructor <;> linarith
      · rw [abs_le]; constructor <;> linarith
      · rw [hc, hf, rot_apply, rot_apply, ← hd]
        ext
        · simp only; field_simp; linear_combination (2 * p.1 - a.x - b.x) * hd2
        · simp only; field_simp; linear_combination (2 * p.2 - a.y - b.y) * hd2
  have hemb : MeasurableEmbedding f := by
    rw [hf]; exact (LinearMap.continuous_of_finiteDimensional _).measurableEmbedding (rot_inj hu)
  have hmp : MeasurePreserving f volume volume := by rw [hf]; exact rot_preserving hu
  have i1 : regionArea (RodBox a b r) = regionArea bb.Mem := by
    rw [regionArea, hreg, hmp.setIntegral_preimage_emb hemb (fun _ => (1 : ℝ)), regionArea]
  have i2 : ∫ p in (RodBox a b r).region, (p.1 ^ 2 + p.2 ^ 2) = ∫ p in Pts.region bb.Mem, (p.1 ^ 2 + p.2 ^ 2) := by
    rw [hreg, ← hmp.setIntegral_preimage_emb hemb (fun p => p.1 ^ 2 + p.2 ^ 2) (Pts.region bb.Mem)]
    congr 1
    funext p
    rw [hf, rot_norm hu]
  rw [regionMoment, i1, i2, ← regionMoment, ← C47_box2_moment m bb (by rw [hbb]; simp only; linarith) (by rw [hbb]; simp only; linarith)]
  have hcn : c.1 ^ 2 + c.2 ^ 2 = ((a.x + b.x) / 2) ^ 2 + ((a.y + b.y) / 2) ^ 2 := by rw [hc, hf, rot_norm hu]
  have hdd : b.distance a = d := by rw [hd, dist_eq, dist_eq]; congr 1; ring
  simp only [momentForSegment, momentForBox2, momentForBox, hdd, Vec.lengthSq, Vec.dot, Vec.lerp, Vec.mult, Vec.add, lit_real, hbb]
  push_cast
  linear_combination -m * hcn

/-- Without radius, `MomentForSegment` is the moment of inertia about the origin of the mass spread evenly along the segment. -/
theorem C47_rod_moment (m : ℝ) (a b : Vec ℝ) :
    momentForSegment m a b 0 = m * ∫ t in (0 : ℝ)..1, (a.lerp b t).lengthSq := by
  have hd2 : b.distance a ^ 2 = (b.x - a.x) ^ 2 + (b.y - a.y) ^ 2 := by
    rw [dist_eq, Real.sq_sqrt (by positivity)]
  have e : ∀ t : ℝ, (a.lerp b t).lengthSq = (a.x ^ 2 + a.y ^ 2) + 2 * (a.x * (b.x - a.x) + a.y * (b.y - a.y)) * t + ((b.x - a.x) ^ 2 + (b.y - a.y) ^ 2) * t ^ 2 := by
    intro t; simp only [Vec.lengthSq, Vec.dot, Vec.lerp, Vec.mult, Vec.add]; ring
  simp only [e]
  rw [intervalIntegral.integral_of_le zero_le_one, ← integral_Icc_eq_integral_Ioc, integral_poly1]
  simp only [momentForSegment, Vec.lengthSq, Vec.dot, Vec.lerp, Vec.mult, Vec.add, lit_real]
  push_cast
  have : (b.distance a + 2 * 0) * (b.distance a + 2 * 0) = b.distance a ^ 2 := by ring
  rw [this, hd2]; ring

/-! ## Concrete cases -/

/-- The unit square moved by `(1, 0)`, with the border 1. -/
example : areaForPoly Real.pi 4 (vert [⟨1, 0⟩, ⟨1, 1⟩, ⟨0, 1⟩, ⟨0, 0⟩]) 1 = regionArea (Thick (Hull fun p => p ∈ [⟨1, 0⟩, ⟨1, 1⟩, ⟨0, 1⟩, ⟨0, 0⟩]) 1) ∧
    areaForPoly Real.pi 4 (vert [⟨1, 0⟩, ⟨1, 1⟩, ⟨0, 1⟩, ⟨0, 0⟩]) 1 = Real.pi + 5 ∧
    regionMoment 12 (Pts.shift (BB.Mem ⟨0, 0, 1, 1⟩) ⟨1, 0⟩) = 32 := by
  have hc : StrictlyConvex (corners ⟨0, 0, 1, 1⟩) := corners_convex _ (by norm_num) (by norm_num)
  refine ⟨C47_poly_area hc zero_le_one, ?_, ?_⟩
  · rw [areaForPoly_eq]
    have := area2_box ⟨0, 0, 1, 1⟩
    simp [area2, edgeSum, Finset.sum_range_succ, vert, dist_eq, Vec.cross]
    ring
  · rw [← corners_hull _ (by norm_num) (by norm_num), ← C47_poly_moment 12 hc, momentForPoly_eq _ (by simp [corners])]
    simp [area2, edgeSum, Finset.sum_range_succ, vert, corners, Vec.cross, Vec.dot, Vec.add]
    norm_num

/-- A segment of length 2 with radius 1, and a ring. -/
example : regionArea (Thick (OnSegment ⟨0, 0⟩ ⟨2, 0⟩) 1) = Real.pi + 4 ∧ regionMoment 6 (RodBox ⟨0, 0⟩ ⟨2, 0⟩ 1) = 16 ∧
    regionMoment 2 (Ring ⟨3, 4⟩ 2 1) = 55 := by
  refine ⟨?_, ?_, ?_⟩
  · rw [← C47_segment_area _ _ zero_le_one, areaForSegment, dist_eq]
    norm_num [lit_real]
    rw [show (4 : ℝ) = 2 ^ 2 by norm_num, Real.sqrt_sq (by norm_num)]; norm_num
  · rw [← C47_segment_moment 6 (by simp) one_pos]
    simp only [momentForSegment, dist_eq, Vec.lengthSq, Vec.dot, Vec.lerp, Vec.mult, Vec.add, lit_real]
    norm_num
    rw [show √(4 : ℝ) = 2 by rw [show (4 : ℝ) = 2 ^ 2 by norm_num, Real.sqrt_sq (by norm_num)]]; norm_num
  · rw [← C47_circle_moment 2 _ (by norm_num) (by norm_num) (by norm_num)]
    simp only [momentForCircle, Vec.lengthSq, Vec.dot, lit_real]
    norm_num

end CP
