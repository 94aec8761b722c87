import Verif.Proofs.Plane
import Verif.Props.Body

/-! # C29: bounding boxes of shapes; C30: point queries -/

namespace CP
open GoFloat

/-! ## Bodies have rigid transforms -/

/-- The transform of every body is rigid, so C29 applies to `CacheBB` and to every update by the space. -/
theorem C29_body_rigid (b : Body ℝ) (h : b.Reachable) : b.transform.IsRigid := by
  have h1 := h.wf
  rw [Body.Wf] at h1
  rw [h1]
  refine ⟨?_, ?_, ?_⟩
  · simp only [Body.setTransform, Transform.transpose, cos_real, sin_real]
    nlinarith [Real.sin_sq_add_cos_sq b.a]
  · simp only [Body.setTransform, Transform.transpose, cos_real, sin_real]
  · simp only [Body.setTransform, Transform.transpose, cos_real, sin_real]

/-! ## Thick hulls and boxes -/

/-- A box around the images of a set of points, each side at one of them, becomes the tight box of the thick hull when it
is grown by the radius. -/
theorem tightBox_thick {t : Transform ℝ} (ht : t.IsRigid) {V : Pts} {r : ℝ} (hr : 0 ≤ r) (bb : BB ℝ)
    (hin : ∀ q, V q → bb.Mem (t.point q))
    (hl : ∃ q, V q ∧ (t.point q).x = bb.l) (hr' : ∃ q, V q ∧ (t.point q).x = bb.r)
    (hb : ∃ q, V q ∧ (t.point q).y = bb.b) (ht' : ∃ q, V q ∧ (t.point q).y = bb.t)
    {C : Pts} (hC : IsConvex C) (hVC : ∀ q, V q → C q) (hmin : ∀ q, C q → Hull V q) :
    TightBox (t.image (Thick C r)) ⟨bb.l - r, bb.b - r, bb.r + r, bb.t + r⟩ := by
  have hall : ∀ q, C q → bb.Mem (t.point q) := by
    intro q hq
    refine Hull.least (T := fun q => bb.Mem (t.point q)) ?_ hin (hmin q hq)
    rintro p q x hp hq hx
    obtain ⟨s, h0, h1, e⟩ := hx.image t
    obtain ⟨p1, p2, p3, p4⟩ := hp
    obtain ⟨q1, q2, q3, q4⟩ := hq
    show bb.Mem _
    rw [e]
    refine ⟨?_, ?_, ?_, ?_⟩ <;> dsimp only <;> nlinarith
  have touch : ∀ (q : Vec ℝ) (d : Vec ℝ), V q → d.x ^ 2 + d.y ^ 2 = r ^ 2 →
      t.image (Thick C r) ⟨(t.point q).x + d.x, (t.point q).y + d.y⟩ := by
    intro q d hq hd
    obtain ⟨p, hp⟩ := ht.surj ⟨(t.point q).x + d.x, (t.point q).y + d.y⟩
    refine ⟨p, ⟨q, hVC q hq, ?_⟩, hp.symm⟩
    rw [← ht.distance, hp, Vec.distance_le_iff hr]
    have : ((t.point q).x + d.x - (t.point q).x) ^ 2 + ((t.point q).y + d.y - (t.point q).y) ^ 2 = d.x ^ 2 + d.y ^ 2 := by ring
    rw [this]; exact le_of_eq hd
  refine ⟨?_, ?_, ?_, ?_, ?_⟩
  · rintro w ⟨p, ⟨q, hq, hpq⟩, rfl⟩
    have hm := hall q hq
    rw [← ht.distance] at hpq
    have hx := abs_le.1 (le_trans (Vec.abs_x_le _ _) hpq)
    have hy := abs_le.1 (le_trans (Vec.abs_y_le _ _) hpq)
    obtain ⟨m1, m2, m3, m4⟩ := hm
    refine ⟨?_, ?_, ?_, ?_⟩ <;> dsimp only <;> linarith [hx.1, hx.2, hy.1, hy.2]
  · obtain ⟨q, hq, e⟩ := hl
    exact ⟨_, touch q ⟨-r, 0⟩ hq (by ring), by simp only [e]; ring⟩
  · obtain ⟨q, hq, e⟩ := hr'
    exact ⟨_, touch q ⟨r, 0⟩ hq (by ring), by simp only [e]⟩
  · obtain ⟨q, hq, e⟩ := hb
    exact ⟨_, touch q ⟨0, -r⟩ hq (by ring), by simp only [e]; ring⟩
  · obtain ⟨q, hq, e⟩ := ht'
    exact ⟨_, touch q ⟨0, r⟩ hq (by ring), by simp only [e]⟩

/-! ## C29 -/

/-- **C29** for circles. -/
theorem C29_circle (s : Circle ℝ) (hr : 0 ≤ s.r) (t : Transform ℝ) (ht : t.IsRigid) :
    TightBox (t.image s.pts) (s.cacheData t).2 := by
  refine tightBox_thick ht hr ⟨(t.point s.c).x, (t.point s.c).y, (t.point s.c).x, (t.point s.c).y⟩ (V := fun p => p = s.c)
    ?_ ⟨_, rfl, rfl⟩ ⟨_, rfl, rfl⟩ ⟨_, rfl, rfl⟩ ⟨_, rfl, rfl⟩ ?_ (fun _ h => h) (fun _ h => Hull.pt h)
  · rintro q rfl; exact ⟨le_refl _, le_refl _, le_refl _, le_refl _⟩
  · rintro p q x rfl rfl ⟨s, -, -, rfl⟩; ext <;> simp

/-- **C29** for segments. -/
theorem C29_segment (s : Segment ℝ) (hr : 0 ≤ s.r) (t : Transform ℝ) (ht : t.IsRigid) :
    TightBox (t.image s.pts) (s.cacheData t).2 := by
  obtain ⟨bb, hbb⟩ : ∃ bb : BB ℝ, bb = ⟨min (t.point s.a).x (t.point s.b).x, min (t.point s.a).y (t.point s.b).y,
    max (t.point s.a).x (t.point s.b).x, max (t.point s.a).y (t.point s.b).y⟩ := ⟨_, rfl⟩
  have key := tightBox_thick ht hr bb (V := fun p => p = s.a ∨ p = s.b) (C := OnSegment s.a s.b)
    (by
      rintro q (rfl | rfl) <;> rw [hbb]
      · exact ⟨min_le_left _ _, le_max_left _ _, min_le_left _ _, le_max_left _ _⟩
      · exact ⟨min_le_right _ _, le_max_right _ _, min_le_right _ _, le_max_right _ _⟩)
    (by rw [hbb]; rcases min_choice (t.point s.a).x (t.point s.b).x with h | h
        · exact ⟨s.a, .inl rfl, h.symm⟩
        · exact ⟨s.b, .inr rfl, h.symm⟩)
    (by rw [hbb]; rcases max_choice (t.point s.a).x (t.point s.b).x with h | h
        · exact ⟨s.a, .inl rfl, h.symm⟩
        · exact ⟨s.b, .inr rfl, h.symm⟩)
    (by rw [hbb]; rcases min_choice (t.point s.a).y (t.point s.b).y with h | h
        · exact ⟨s.a, .inl rfl, h.symm⟩
        · exact ⟨s.b, .inr rfl, h.symm⟩)
    (by rw [hbb]; rcases max_choice (t.point s.a).y (t.point s.b).y with h | h
        · exact ⟨s.a, .inl rfl, h.symm⟩
        · exact ⟨s.b, .inr rfl, h.symm⟩)
    (isConvex_onSegment _ _) (by rintro q (rfl | rfl); exacts [OnSegment.left _ _, OnSegment.right _ _])
    (fun q hq => Hull.mix (.pt (.inl rfl)) (.pt (.inr rfl)) hq)
  have e : (s.cacheData t).2 = ⟨bb.l - s.r, bb.b - s.r, bb.r + s.r, bb.t + s.r⟩ := by
    simp only [Segment.cacheData, hbb]
    have lr : ∀ x y : ℝ, (if x < y then (x, y) else (y, x)) = (min x y, max x y) := by
      intro x y
      split
      · next h => rw [min_eq_left h.le, max_eq_right h.le]
      · next h => rw [min_eq_right (not_lt.1 h), max_eq_left (not_lt.1 h)]
    rw [lr, lr]
  rw [e]; exact key

/-- The box of the fold of `CacheData`. -/
theorem foldBox (l : List (Plane ℝ)) (bb : BB ℝ) :
    l.foldl (fun (bb : BB ℝ) p => ⟨min bb.l p.v0.x, min bb.b p.v0.y, max bb.r p.v0.x, max bb.t p.v0.y⟩) bb =
      ⟨l.foldl (fun m p => min m p.v0.x) bb.l, l.foldl (fun m p => min m p.v0.y) bb.b,
       l.foldl (fun m p => max m p.v0.x) bb.r, l.foldl (fun m p => max m p.v0.y) bb.t⟩ := by
  induction l generalizing bb with
  | nil => rfl
  | cons a l ih => rw [List.foldl_cons, ih]; rfl

theorem foldMin_spec {A : Type} (f : A → ℝ) (l : List A) (m : ℝ) :
    (∀ a ∈ l, l.foldl (fun m p => min m (f p)) m ≤ f a) ∧ l.foldl (fun m p => min m (f p)) m ≤ m ∧
      (l.foldl (fun m p => min m (f p)) m = m ∨ ∃ a ∈ l, f a = l.foldl (fun m p => min m (f p)) m) := by
  induction l generalizing m with
  | nil => exact ⟨by simp, le_refl _, .inl rfl⟩
  | cons x l ih =>
    obtain ⟨h1, h2, h3⟩ := ih (min m (f x))
    rw [List.foldl_cons]
    refine ⟨?_, le_trans h2 (min_le_left _ _), ?_⟩
    · rintro a ha
      rcases List.mem_cons.1 ha with rfl | ha
      · exact le_trans h2 (min_le_right _ _)
      · exact h1 a ha
    · rcases h3 with h3 | ⟨a, ha, h3⟩
      · rcases min_choice m (f x) with h | h
        · exact .inl (h3.trans h)
        · exact .inr ⟨x, List.mem_cons_self, (h3.trans h).symm⟩
      · exact .inr ⟨a, List.mem_cons_of_mem _ ha, h3⟩

theorem foldMax_spec {A : Type} (f : A → ℝ) (l : List A) (m : ℝ) :
    (∀ a ∈ l, f a ≤ l.foldl (fun m p => max m (f p)) m) ∧ m ≤ l.foldl (fun m p => max m (f p)) m ∧
      (l.foldl (fun m p => max m (f p)) m = m ∨ ∃ a ∈ l, f a = l.foldl (fun m p => max m (f p)) m) := by
  induction l generalizing m with
  | nil => exact ⟨by simp, le_refl _, .inl rfl⟩
  | cons x l ih =>
    obtain ⟨h1, h2, h3⟩ := ih (max m (f x))
    rw [List.foldl_cons]
    refine ⟨?_, le_trans (le_max_left _ _) h2, ?_⟩
    · rintro a ha
      rcases List.mem_cons.1 ha with rfl | ha
      · exact le_trans (le_max_right _ _) h2
      · exact h1 a ha
    · rcases h3 with h3 | ⟨a, ha, h3⟩
      · rcases max_choice m (f x) with h | h
        · exact .inl (h3.trans h)
        · exact .inr ⟨x, List.mem_cons_self, (h3.trans h).symm⟩
      · exact .inr ⟨a, List.mem_cons_of_mem _ ha, h3⟩

/-- **C29** for polygons with at least one vertex whose transformed coordinates are finite numbers of `float64`. -/
theorem C29_poly (s : Poly ℝ) (hr : 0 ≤ s.r) (hne : s.src ≠ []) (t : Transform ℝ) (ht : t.IsRigid)
    (hfin : ∀ pl ∈ s.src, |(t.point pl.v0).x| ≤ maxFloat ∧ |(t.point pl.v0).y| ≤ maxFloat) :
    TightBox (t.image s.pts) (s.cacheData t).2 := by
  obtain ⟨dst, hdst⟩ : ∃ dst, dst = s.src.map fun p => (⟨t.point p.v0, t.vect p.n⟩ : Plane ℝ) := ⟨_, rfl⟩
  obtain ⟨bb, hbb⟩ : ∃ bb : BB ℝ, bb = ⟨dst.foldl (fun m p => min m p.v0.x) maxFloat, dst.foldl (fun m p => min m p.v0.y) maxFloat,
       dst.foldl (fun m p => max m p.v0.x) (-maxFloat), dst.foldl (fun m p => max m p.v0.y) (-maxFloat)⟩ := ⟨_, rfl⟩
  have e : (s.cacheData t).2 = ⟨bb.l - s.r, bb.b - s.r, bb.r + s.r, bb.t + s.r⟩ := by
    simp only [Poly.cacheData, ← hdst, foldBox, hbb]
  obtain ⟨pl, hpl⟩ : ∃ pl, pl ∈ s.src := List.exists_mem_of_ne_nil _ hne
  have hm : ∀ q ∈ s.src, (⟨t.point q.v0, t.vect q.n⟩ : Plane ℝ) ∈ dst := fun q hq => by
    rw [hdst]; exact List.mem_map_of_mem hq
  have hm' : ∀ d ∈ dst, ∃ q ∈ s.src, d.v0 = t.point q.v0 := by
    intro d hd; rw [hdst] at hd
    obtain ⟨q, hq, rfl⟩ := List.mem_map.1 hd
    exact ⟨q, hq, rfl⟩
  rw [e]
  refine tightBox_thick ht hr bb (V := fun p => ∃ pl ∈ s.src, p = pl.v0) ?_ ?_ ?_ ?_ ?_ (isConvex_hull _)
    (fun q hq => Hull.pt hq) (fun q hq => hq)
  · rintro q ⟨p, hp, rfl⟩
    have h := hm p hp
    rw [hbb]
    exact ⟨(foldMin_spec (fun p : Plane ℝ => p.v0.x) dst maxFloat).1 _ h, (foldMax_spec (fun p : Plane ℝ => p.v0.x) dst (-maxFloat)).1 _ h,
      (foldMin_spec (fun p : Plane ℝ => p.v0.y) dst maxFloat).1 _ h, (foldMax_spec (fun p : Plane ℝ => p.v0.y) dst (-maxFloat)).1 _ h⟩
  · obtain ⟨h1, h2, h3⟩ := foldMin_spec (fun p : Plane ℝ => p.v0.x) dst maxFloat
    rcases h3 with h3 | ⟨a, ha, h3⟩
    · refine ⟨pl.v0, ⟨pl, hpl, rfl⟩, ?_⟩
      have := h1 _ (hm pl hpl)
      rw [hbb]; dsimp only
      refine le_antisymm ?_ this
      rw [h3]; exact (abs_le.1 (hfin pl hpl).1).2
    · obtain ⟨q, hq, e⟩ := hm' a ha
      exact ⟨q.v0, ⟨q, hq, rfl⟩, by rw [hbb, ← e]; exact h3⟩
  · obtain ⟨h1, h2, h3⟩ := foldMax_spec (fun p : Plane ℝ => p.v0.x) dst (-maxFloat)
    rcases h3 with h3 | ⟨a, ha, h3⟩
    · refine ⟨pl.v0, ⟨pl, hpl, rfl⟩, ?_⟩
      have := h1 _ (hm pl hpl)
      rw [hbb]; dsimp only
      refine le_antisymm this ?_
      rw [h3]; exact (abs_le.1 (hfin pl hpl).1).1
    · obtain ⟨q, hq, e⟩ := hm' a ha
      exact ⟨q.v0, ⟨q, hq, rfl⟩, by rw [hbb, ← e]; exact h3⟩
  · obtain ⟨h1, h2, h3⟩ := foldMin_spec (fun p : Plane ℝ => p.v0.y) dst maxFloat
    rcases h3 with h3 | ⟨a, ha, h3⟩
    · refine ⟨pl.v0, ⟨pl, hpl, rfl⟩, ?_⟩
      have := h1 _ (hm pl hpl)
      rw [hbb]; dsimp only
      refine le_antisymm ?_ this
      rw [h3]; exact (abs_le.1 (hfin pl hpl).2).2
    · obtain ⟨q, hq, e⟩ := hm' a ha
      exact ⟨q.v0, ⟨q, hq, rfl⟩, by rw [hbb, ← e]; exact h3⟩
  · obtain ⟨h1, h2, h3⟩ := foldMax_spec (fun p : Plane ℝ => p.v0.y) dst (-maxFloat)
    rcases h3 with h3 | ⟨a, ha, h3⟩
    · refine ⟨pl.v0, ⟨pl, hpl, rfl⟩, ?_⟩
      have := h1 _ (hm pl hpl)
      rw [hbb]; dsimp only
      refine le_antisymm this ?_
      rw [h3]; exact (abs_le.1 (hfin pl hpl).2).1
    · obtain ⟨q, hq, e⟩ := hm' a ha
      exact ⟨q.v0, ⟨q, hq, rfl⟩, by rw [hbb, ← e]; exact h3⟩

theorem edgePlanes_v0 (prev : Vec ℝ) (l : List (Vec ℝ)) : (Poly.edgePlanes prev l).map Plane.v0 = l := by
  induction l generalizing prev with
  | nil => rfl
  | cons a l ih => simp [Poly.edgePlanes, ih]

/-- The points of a polygon made from vertices: within the radius of their convex hull. -/
theorem C29_poly_new (verts : List (Vec ℝ)) (r : ℝ) : (Poly.new verts r).pts = Thick (Hull fun p => p ∈ verts) r := by
  have : (fun p => ∃ pl ∈ (Poly.new verts r).src, p = pl.v0) = fun p => p ∈ verts := by
    funext p
    apply propext
    simp only [Poly.new, Poly.setVerts]
    cases hl : verts.getLast? with
    | none =>
      rw [List.getLast?_eq_none_iff] at hl
      simp [hl]
    | some a =>
      have := edgePlanes_v0 a verts
      constructor
      · rintro ⟨pl, hpl, rfl⟩
        rw [← this]; exact List.mem_map_of_mem hpl
      · intro h
        rw [← this] at h
        obtain ⟨pl, hpl, rfl⟩ := List.mem_map.1 h
        exact ⟨pl, hpl, rfl⟩
  simp only [Poly.pts, this]
  congr 1
  simp only [Poly.new, Poly.setVerts]
  split <;> rfl

/-! ## C30 -/

/-- The points of a shape in the world, after an update with a rigid transform, are the ones used by the queries. -/
theorem C30_circle_world (s : Circle ℝ) (t : Transform ℝ) (ht : t.IsRigid) :
    t.image s.pts = Thick (fun p => p = (s.cacheData t).1.tc) s.r := by
  funext w
  apply propext
  simp only [Transform.image, Circle.pts, Thick, Circle.cacheData, exists_eq_left]
  constructor
  · rintro ⟨p, hp, rfl⟩; rwa [ht.distance]
  · intro h
    obtain ⟨p, rfl⟩ := ht.surj w
    exact ⟨p, by rwa [ht.distance] at h, rfl⟩

theorem C30_segment_world (s : Segment ℝ) (t : Transform ℝ) (ht : t.IsRigid) :
    t.image s.pts = Thick (OnSegment (s.cacheData t).1.ta (s.cacheData t).1.tb) s.r := by
  funext w
  apply propext
  simp only [Transform.image, Segment.pts, Thick, Segment.cacheData]
  constructor
  · rintro ⟨p, ⟨q, hq, hp⟩, rfl⟩; exact ⟨t.point q, hq.image t, by rwa [ht.distance]⟩
  · rintro ⟨q, ⟨s', h0, h1, rfl⟩, h⟩
    obtain ⟨p, rfl⟩ := ht.surj w
    refine ⟨p, ⟨_, ⟨s', h0, h1, rfl⟩, ?_⟩, rfl⟩
    rw [← ht.distance]
    convert h using 2
    ext <;> simp only [Transform.point] <;> ring

/-- **C30** for circles: any query point but the centre itself. -/
theorem C30_circle (s : Circle ℝ) (hr : 0 ≤ s.r) (p : Vec ℝ) (hp : p ≠ s.tc) :
    TrueDistance (Thick (fun q => q = s.tc) s.r) p (s.pointQuery p) := by
  refine trueDistance_of_nearest (S := fun q => q = s.tc) (c := s.tc) ?_ rfl ?_ hp hr (s.pointQuery p) rfl rfl
  · rintro p q x rfl rfl ⟨s, -, -, rfl⟩; ext <;> simp
  · rintro q rfl; exact le_refl _

/-- At the centre the distance is still right (the surface point is not a number in Go: `r/0 * 0`). -/
theorem C30_circle_centre (s : Circle ℝ) : (s.pointQuery s.tc).distance = -s.r := by
  have : (s.tc.sub s.tc).length = 0 := Vec.distance_self s.tc
  simp [Circle.pointQuery, this]

/-- **C30**: `ClosestPointOnSegment` is the closest point of the segment. -/
theorem C30_closest (p a b : Vec ℝ) (hab : a ≠ b) : OnSegment a b (p.closestPointOnSegment a b) ∧
    ∀ q, OnSegment a b q → p.distance (p.closestPointOnSegment a b) ≤ p.distance q := by
  obtain ⟨L, hL⟩ : ∃ L, L = (a.sub b).lengthSq := ⟨_, rfl⟩
  obtain ⟨k, hk⟩ : ∃ k, k = (a.sub b).dot (p.sub b) := ⟨_, rfl⟩
  obtain ⟨c, hc⟩ : ∃ c, c = clamp01 (k / L) := ⟨_, rfl⟩
  have hLpos : 0 < L := by
    have h0 : 0 ≤ L := by rw [hL]; exact Vec.dot_self_nonneg _
    refine lt_of_le_of_ne h0 fun e => hab ?_
    rw [← Vec.distance_eq_zero, Vec.distance, Vec.length]
    have : (a.sub b).dot (a.sub b) = 0 := by rw [e, hL]; rfl
    rw [this]; exact Real.sqrt_zero
  have hc01 : 0 ≤ c ∧ c ≤ 1 := by rw [hc]; exact (C41_clamp01 _).2
  have hval : p.closestPointOnSegment a b = b.add ((a.sub b).mult c) := by
    rw [hc, hk, hL]; rfl
  have hcase : (c = k / L) ∨ (c = 0 ∧ k ≤ 0) ∨ (c = 1 ∧ L ≤ k) := by
    rw [hc]
    simp only [clamp01]
    by_cases h1 : k / L ≤ 1
    · rw [min_eq_left h1]
      by_cases h0 : 0 ≤ k / L
      · left; rw [max_eq_right h0]
      · push Not at h0
        right; left
        refine ⟨max_eq_left h0.le, ?_⟩
        by_contra h
        push Not at h
        exact absurd h0 (not_lt.2 (by positivity))
    · push Not at h1
      right; right
      rw [min_eq_right h1.le]
      refine ⟨max_eq_right (by norm_num), ?_⟩
      rw [lt_div_iff₀ hLpos] at h1; linarith
  rw [hval]
  have hmem : OnSegment a b (b.add ((a.sub b).mult c)) := by
    refine ⟨1 - c, by linarith [hc01.2], by linarith [hc01.1], ?_⟩
    ext <;> simp only [Vec.add, Vec.sub, Vec.mult] <;> ring
  refine ⟨hmem, ?_⟩
  intro q hq
  refine nearest_of_obtuse (S := OnSegment a b) (fun x hx => ?_) hq
  obtain ⟨s, h0, h1, rfl⟩ := hx
  have e : (p.sub (b.add ((a.sub b).mult c))).dot ((⟨a.x + s * (b.x - a.x), a.y + s * (b.y - a.y)⟩ : Vec ℝ).sub (b.add ((a.sub b).mult c)))
      = (1 - s - c) * (k - c * L) := by
    rw [hk, hL]; simp only [Vec.sub, Vec.add, Vec.mult, Vec.dot, Vec.lengthSq]; ring
  rw [e]
  rcases hcase with h | ⟨h, hk0⟩ | ⟨h, hk1⟩
  · rw [h, div_mul_cancel₀ _ (ne_of_gt hLpos), sub_self, mul_zero]
  · rw [h]; nlinarith
  · rw [h]; nlinarith

/-- **C30** for segments: any query point that is not on the core of the segment. -/
theorem C30_segment (s : Segment ℝ) (hr : 0 ≤ s.r) (hab : s.ta ≠ s.tb) (p : Vec ℝ) (hp : ¬ OnSegment s.ta s.tb p) :
    TrueDistance (Thick (OnSegment s.ta s.tb) s.r) p (s.pointQuery p) := by
  obtain ⟨h1, h2⟩ := C30_closest p s.ta s.tb hab
  have hpc : p ≠ p.closestPointOnSegment s.ta s.tb := by intro e; rw [← e] at h1; exact hp h1
  refine trueDistance_of_nearest (isConvex_onSegment _ _) h1 h2 hpc hr (s.pointQuery p) ?_ rfl
  have hd : (p.sub (p.closestPointOnSegment s.ta s.tb)).length ≠ 0 := fun e => hpc (Vec.distance_eq_zero.1 e)
  simp only [Segment.pointQuery, ne_eq]
  rw [if_pos hd]
  congr 1
  have : p.distance (p.closestPointOnSegment s.ta s.tb) = (p.sub (p.closestPointOnSegment s.ta s.tb)).length := rfl
  rw [this]
  ext <;> simp only [Vec.mult] <;> ring

/-- On the core the distance is still minus the radius; `Point` is then the query point itself, not a surface point. -/
theorem C30_segment_core (s : Segment ℝ) (hab : s.ta ≠ s.tb) (p : Vec ℝ) (hp : OnSegment s.ta s.tb p) :
    (s.pointQuery p).distance = -s.r ∧ (s.pointQuery p).point = p := by
  obtain ⟨h1, h2⟩ := C30_closest p s.ta s.tb hab
  have h3 := h2 p hp
  rw [Vec.distance_self] at h3
  have e : p.distance (p.closestPointOnSegment s.ta s.tb) = 0 := le_antisymm h3 (Vec.distance_nonneg _ _)
  have e2 := Vec.distance_eq_zero.1 e
  have e' : (p.sub (p.closestPointOnSegment s.ta s.tb)).length = 0 := e
  simp only [Segment.pointQuery, e', ne_eq, not_true, if_false]
  exact ⟨by ring, e2.symm⟩

/-- The gradient is a unit vector and leads from the surface point to the query point. -/
theorem C30_gradient_circle (s : Circle ℝ) (p : Vec ℝ) (h : magicEpsilon < p.distance s.tc) :
    (s.pointQuery p).gradient.length = 1 ∧
    (s.pointQuery p).point.add ((s.pointQuery p).gradient.mult (s.pointQuery p).distance) = p := by
  have hpos : 0 < p.distance s.tc := lt_trans (by simp [magicEpsilon]) h
  have h' : magicEpsilon < (p.sub s.tc).length := h
  have e : p.distance s.tc = (p.sub s.tc).length := rfl
  rw [e] at hpos
  simp only [Circle.pointQuery, if_pos h']
  constructor
  · rw [Vec.length_mult, abs_of_pos (by positivity)]; field_simp
  · obtain ⟨d, hd⟩ : ∃ d, d = (p.sub s.tc).length := ⟨_, rfl⟩
    rw [← hd] at hpos ⊢
    ext
    · simp only [Vec.add, Vec.mult, Vec.sub]; field_simp; ring
    · simp only [Vec.add, Vec.mult, Vec.sub]; field_simp; ring

theorem C30_gradient_segment (s : Segment ℝ) (p : Vec ℝ)
    (h : magicEpsilon < p.distance (p.closestPointOnSegment s.ta s.tb)) :
    (s.pointQuery p).gradient.length = 1 ∧
    (s.pointQuery p).point.add ((s.pointQuery p).gradient.mult (s.pointQuery p).distance) = p := by
  have hpos : 0 < p.distance (p.closestPointOnSegment s.ta s.tb) := lt_trans (by simp [magicEpsilon]) h
  obtain ⟨c, hc⟩ : ∃ c, c = p.closestPointOnSegment s.ta s.tb := ⟨_, rfl⟩
  rw [← hc] at h hpos
  have h' : magicEpsilon < (p.sub c).length := h
  have hpos' : 0 < (p.sub c).length := hpos
  simp only [Segment.pointQuery, ← hc, if_pos h', ne_eq, hpos'.ne', not_false_iff, if_true]
  constructor
  · rw [Vec.length_mult, abs_of_pos (by positivity)]; field_simp
  · obtain ⟨d, hd⟩ : ∃ d, d = (p.sub c).length := ⟨_, rfl⟩
    rw [← hd] at hpos' ⊢
    ext
    · simp only [Vec.add, Vec.mult, Vec.sub]; field_simp; ring
    · simp only [Vec.add, Vec.mult, Vec.sub]; field_simp; ring

/-! ## Concrete cases -/

example : (⟨0, 1, -1, 0, 5, 7⟩ : Transform ℝ).IsRigid := by refine ⟨?_, ?_, ?_⟩ <;> norm_num

/-- A unit circle at the origin and the point (3, 4): distance 4, surface point (3/5, 4/5). -/
example : ((⟨⟨0, 0⟩, ⟨0, 0⟩, 1⟩ : Circle ℝ).pointQuery ⟨3, 4⟩).distance = 4 ∧ (⟨3, 4⟩ : Vec ℝ) ≠ ⟨0, 0⟩ := by
  have : Real.sqrt (3 * 3 + 4 * 4) = 5 := by rw [show (3 : ℝ) * 3 + 4 * 4 = 5 ^ 2 by norm_num]; exact Real.sqrt_sq (by norm_num)
  constructor
  · simp [Circle.pointQuery, Vec.sub, Vec.length, Vec.dot, this]; norm_num
  · simp

example : (Segment.new (F := ℝ) ⟨0, 0⟩ ⟨2, 0⟩ 1).a ≠ (Segment.new (F := ℝ) ⟨0, 0⟩ ⟨2, 0⟩ 1).b ∧
    ¬ OnSegment ⟨0, 0⟩ ⟨2, 0⟩ ⟨1, 3⟩ := by
  constructor
  · simp [Segment.new]
  · rintro ⟨s, -, -, h⟩
    have := congrArg Vec.y h
    norm_num at this

end CP
