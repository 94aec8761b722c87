import Verif.Model.BB

/-!
# C10, C11, C12, C41: boxes, transforms, clamping

Specification vocabulary: a box is the set of points `Mem`; everything is stated through it.
-/

namespace CP
open GoFloat

/-- Point-set meaning of a box (specification). -/
def BB.Mem {F : Type} [GoFloat F] (bb : BB F) (p : Vec F) : Prop :=
  bb.l ≤ p.x ∧ p.x ≤ bb.r ∧ bb.b ≤ p.y ∧ p.y ≤ bb.t

/-- A box whose sides are in order (specification). -/
def BB.Proper {F : Type} [GoFloat F] (bb : BB F) : Prop := bb.l ≤ bb.r ∧ bb.b ≤ bb.t

/-! ## C10 -/

theorem BB.slab_spec {lo hi a d m M : ℝ} (h : lo ≤ hi) :
    match BB.slab lo hi a d m M with
    | none => ∀ t : ℝ, ¬ (lo ≤ a + t * d ∧ a + t * d ≤ hi)
    | some (m', M') => ∀ t : ℝ, (m' ≤ t ∧ t ≤ M') ↔
        ((m ≤ t ∧ t ≤ M) ∧ (lo ≤ a + t * d ∧ a + t * d ≤ hi)) := by
  unfold BB.slab
  by_cases hd : d = 0
  · subst hd
    by_cases ha : a < lo ∨ hi < a
    · simp only [if_true, ha]
      intro t ⟨h1, h2⟩
      rcases ha with ha | ha <;> linarith
    · simp only [if_true, ha, if_false]
      push Not at ha
      intro t
      constructor
      · rintro h; refine ⟨h, ?_, ?_⟩ <;> linarith [ha.1, ha.2]
      · rintro ⟨h, _⟩; exact h
  · simp only [hd, if_false]
    intro t
    rcases lt_or_gt_of_ne hd with hneg | hpos
    · have e1 : (hi - a) / d ≤ (lo - a) / d := by
        rw [div_le_div_right_of_neg hneg]; linarith
      rw [min_eq_right e1, max_eq_left e1, max_le_iff, le_min_iff, div_le_iff_of_neg hneg,
        le_div_iff_of_neg hneg]
      constructor
      · rintro ⟨⟨h1, h2⟩, h3, h4⟩; refine ⟨⟨h1, h3⟩, ?_, ?_⟩ <;> linarith
      · rintro ⟨⟨h1, h2⟩, h3, h4⟩; refine ⟨⟨h1, ?_⟩, h2, ?_⟩ <;> linarith
    · have e1 : (lo - a) / d ≤ (hi - a) / d := by
        rw [div_le_div_iff_of_pos_right hpos]; linarith
      rw [min_eq_left e1, max_eq_right e1, max_le_iff, le_min_iff, div_le_iff₀ hpos,
        le_div_iff₀ hpos]
      constructor
      · rintro ⟨⟨h1, h2⟩, h3, h4⟩; refine ⟨⟨h1, h3⟩, ?_, ?_⟩ <;> linarith
      · rintro ⟨⟨h1, h2⟩, h3, h4⟩; refine ⟨⟨h1, ?_⟩, h2, ?_⟩ <;> linarith

/-- The parameters at which the segment from `a` to `b` is inside `bb` (specification). -/
def BB.hits (bb : BB ℝ) (a b : Vec ℝ) : Set ℝ :=
  {t | 0 ≤ t ∧ t ≤ 1 ∧ bb.Mem ⟨a.x + t * (b.x - a.x), a.y + t * (b.y - a.y)⟩}

/-- **C10**: `BB.SegmentQuery` returns the least fraction at which the segment is inside the box, and
`INFINITY` when there is none. -/
theorem C10_segmentQuery (bb : BB ℝ) (hp : bb.Proper) (a b : Vec ℝ) :
    ((bb.hits a b).Nonempty → IsLeast (bb.hits a b) (bb.segmentQuery a b)) ∧
    (¬ (bb.hits a b).Nonempty → bb.segmentQuery a b = maxFloat) := by
  have key : (IsLeast (bb.hits a b) (bb.segmentQuery a b)) ∨
      (bb.hits a b = ∅ ∧ bb.segmentQuery a b = maxFloat) := by
    simp only [BB.segmentQuery]
    have hx := BB.slab_spec (lo := bb.l) (hi := bb.r) (a := a.x) (d := (b.sub a).x)
      (m := -maxFloat) (M := maxFloat) hp.1
    have hmem : ∀ t : ℝ, t ∈ bb.hits a b ↔ 0 ≤ t ∧ t ≤ 1 ∧
        (bb.l ≤ a.x + t * (b.sub a).x ∧ a.x + t * (b.sub a).x ≤ bb.r) ∧
        (bb.b ≤ a.y + t * (b.sub a).y ∧ a.y + t * (b.sub a).y ≤ bb.t) := by
      intro t; simp only [BB.hits, BB.Mem, Vec.sub, Set.mem_ofPred_eq]; tauto
    cases hsx : BB.slab bb.l bb.r a.x (b.sub a).x (-maxFloat) maxFloat with
    | none =>
      rw [hsx] at hx
      right
      refine ⟨?_, by simp⟩
      ext t; rw [hmem]; simp only [Set.mem_empty_iff_false, iff_false]
      rintro ⟨_, _, h, _⟩; exact hx t h
    | some q =>
      obtain ⟨m, M⟩ := q
      rw [hsx] at hx
      have hy := BB.slab_spec (lo := bb.b) (hi := bb.t) (a := a.y) (d := (b.sub a).y)
        (m := m) (M := M) hp.2
      cases hsy : BB.slab bb.b bb.t a.y (b.sub a).y m M with
      | none =>
        rw [hsy] at hy
        right
        refine ⟨?_, by simp [hsy]⟩
        ext t; rw [hmem]; simp only [Set.mem_empty_iff_false, iff_false]
        rintro ⟨_, _, _, h⟩; exact hy t h
      | some q =>
        obtain ⟨m', M'⟩ := q
        rw [hsy] at hy
        simp only [hsy]
        have hin : ∀ t : ℝ, t ∈ bb.hits a b ↔ 0 ≤ t ∧ t ≤ 1 ∧ m' ≤ t ∧ t ≤ M' := by
          intro t
          rw [hmem, hy t, hx t]
          have := one_lt_maxFloat
          constructor
          · rintro ⟨h0, h1, h2, h3⟩
            exact ⟨h0, h1, ⟨⟨by linarith, by linarith⟩, h2⟩, h3⟩
          · rintro ⟨h0, h1, ⟨⟨_, h2⟩, h3⟩⟩; exact ⟨h0, h1, h2, h3⟩
        by_cases hc : m' ≤ M' ∧ 0 ≤ M' ∧ m' ≤ 1
        · left
          rw [if_pos hc]
          constructor
          · rw [hin]
            exact ⟨le_max_right _ _, max_le hc.2.2 zero_le_one, le_max_left _ _,
              max_le hc.1 hc.2.1⟩
          · intro t ht
            rw [hin] at ht
            exact max_le ht.2.2.1 ht.1
        · right
          refine ⟨?_, by rw [if_neg hc]⟩
          ext t; rw [hin]; simp only [Set.mem_empty_iff_false, iff_false]
          rintro ⟨h0, h1, h2, h3⟩
          exact hc ⟨le_trans h2 h3, le_trans h0 h3, le_trans h2 h1⟩
  rcases key with h | ⟨h1, h2⟩
  · exact ⟨fun _ => h, fun hn => absurd ⟨_, h.1⟩ hn⟩
  · exact ⟨fun hn => by simp [h1] at hn, fun _ => h2⟩

/-- **C10**: `IntersectsSegment` is true exactly when some point of the segment is in the box. -/
theorem C10_intersectsSegment (bb : BB ℝ) (hp : bb.Proper) (a b : Vec ℝ) :
    bb.intersectsSegment a b = true ↔
      ∃ t : ℝ, 0 ≤ t ∧ t ≤ 1 ∧ bb.Mem ⟨a.x + t * (b.x - a.x), a.y + t * (b.y - a.y)⟩ := by
  have h := C10_segmentQuery bb hp a b
  unfold BB.intersectsSegment
  rw [decide_eq_true_iff]
  constructor
  · intro hne
    by_contra hcon
    exact hne (h.2 (fun ⟨t, ht⟩ => hcon ⟨t, ht⟩))
  · rintro ⟨t, ht⟩ heq
    have := (h.1 ⟨t, ht⟩).1.2.1
    rw [heq] at this
    exact absurd this (not_le.mpr one_lt_maxFloat)

/-- Non-vacuity: a box hit half way along the segment, and one that is missed. -/
example : (⟨1, -1, 3, 1⟩ : BB ℝ).Proper ∧
    ((⟨1, -1, 3, 1⟩ : BB ℝ).hits ⟨0, 0⟩ ⟨2, 0⟩).Nonempty ∧
    ¬ ((⟨1, -1, 3, 1⟩ : BB ℝ).hits ⟨0, 5⟩ ⟨2, 5⟩).Nonempty := by
  refine ⟨by constructor <;> norm_num, ⟨1, by norm_num, le_refl _, ?_⟩, ?_⟩
  · simp only [BB.Mem]; norm_num
  · rintro ⟨t, _, _, h⟩
    simp only [BB.Mem] at h
    norm_num at h

/-- The proper-box hypothesis of C10 is needed: on an inverted box the query reports a hit. -/
theorem C10_inverted_box_differs :
    ¬ ((⟨3, -1, 1, 1⟩ : BB ℝ).hits ⟨0, 0⟩ ⟨2, 0⟩).Nonempty ∧
      (⟨3, -1, 1, 1⟩ : BB ℝ).segmentQuery ⟨0, 0⟩ ⟨2, 0⟩ ≠ maxFloat := by
  constructor
  · rintro ⟨t, _, _, h⟩
    simp only [BB.Mem] at h
    linarith [h.1, h.2.1]
  · have hm := one_lt_maxFloat
    have h1 : BB.slab (3 : ℝ) 1 0 2 (-maxFloat) maxFloat = some (1 / 2, min maxFloat (3 / 2)) := by
      unfold BB.slab
      rw [if_neg (by norm_num)]
      norm_num
      linarith
    have h2 : ∀ m M : ℝ, BB.slab (-1 : ℝ) 1 0 0 m M = some (m, M) := by
      intro m M; unfold BB.slab; norm_num
    simp only [BB.segmentQuery]
    simp only [Vec.sub, sub_zero, h1, h2]
    split
    · rw [max_eq_left (by norm_num)]; intro h; rw [← h] at hm; norm_num at hm
    · rename_i hc
      exfalso; apply hc
      refine ⟨le_min (by linarith) (by norm_num), le_min (by linarith) (by norm_num), by norm_num⟩

/-! ## C11 -/

section order
variable {F : Type} [GoFloat F]

theorem BB.contains_iff (a o : BB F) :
    a.contains o = true ↔ a.l ≤ o.l ∧ o.r ≤ a.r ∧ a.b ≤ o.b ∧ o.t ≤ a.t := by
  simp [BB.contains, and_assoc]

theorem BB.intersects_iff (a b : BB F) :
    a.intersects b = true ↔ a.l ≤ b.r ∧ b.l ≤ a.r ∧ a.b ≤ b.t ∧ b.b ≤ a.t := by
  simp [BB.intersects, and_assoc]

/-- **C11** (any scalars): `ContainsVect` is membership. -/
theorem C11_containsVect (bb : BB F) (p : Vec F) : bb.containsVect p = true ↔ bb.Mem p := by
  simp [BB.containsVect, BB.Mem, and_assoc]

/-- **C11** (any scalars): for a proper inner box, `Contains` is inclusion of point sets. -/
theorem C11_contains (a o : BB F) (ho : o.Proper) :
    a.contains o = true ↔ ∀ p, o.Mem p → a.Mem p := by
  rw [BB.contains_iff]
  constructor
  · rintro ⟨h1, h2, h3, h4⟩ p ⟨p1, p2, p3, p4⟩
    exact ⟨h1.trans p1, p2.trans h2, h3.trans p3, p4.trans h4⟩
  · intro h
    have h1 := h ⟨o.l, o.b⟩ ⟨le_refl _, ho.1, le_refl _, ho.2⟩
    have h2 := h ⟨o.r, o.t⟩ ⟨ho.1, le_refl _, ho.2, le_refl _⟩
    exact ⟨h1.1, h2.2.1, h1.2.2.1, h2.2.2.2⟩

/-- **C11** (any scalars): two proper boxes intersect exactly when they share a point. -/
theorem C11_intersects (a b : BB F) (ha : a.Proper) (hb : b.Proper) :
    a.intersects b = true ↔ ∃ p, a.Mem p ∧ b.Mem p := by
  rw [BB.intersects_iff]
  constructor
  · rintro ⟨h1, h2, h3, h4⟩
    exact ⟨⟨max a.l b.l, max a.b b.b⟩,
      ⟨le_max_left _ _, max_le ha.1 h2, le_max_left _ _, max_le ha.2 h4⟩,
      ⟨le_max_right _ _, max_le h1 hb.1, le_max_right _ _, max_le h3 hb.2⟩⟩
  · rintro ⟨p, ⟨h1, h2, h3, h4⟩, ⟨k1, k2, k3, k4⟩⟩
    exact ⟨h1.trans k2, k1.trans h2, h3.trans k4, k3.trans h4⟩

/-- **C11** (any scalars): `Merge` contains both arguments and is contained in every box that does. -/
theorem C11_merge (a b : BB F) :
    (a.merge b).contains a = true ∧ (a.merge b).contains b = true ∧
    ∀ c : BB F, c.contains a = true → c.contains b = true → c.contains (a.merge b) = true := by
  simp only [BB.contains_iff, BB.merge]
  refine ⟨⟨min_le_left _ _, le_max_left _ _, min_le_left _ _, le_max_left _ _⟩,
    ⟨min_le_right _ _, le_max_right _ _, min_le_right _ _, le_max_right _ _⟩, ?_⟩
  rintro c ⟨h1, h2, h3, h4⟩ ⟨k1, k2, k3, k4⟩
  exact ⟨le_min h1 k1, max_le h2 k2, le_min h3 k3, max_le h4 k4⟩

/-- **C11** (any scalars): `Expand` contains the box and the point and is least with that. -/
theorem C11_expand (a : BB F) (v : Vec F) :
    (a.expand v).contains a = true ∧ (a.expand v).Mem v ∧
    ∀ c : BB F, c.contains a = true → c.Mem v → c.contains (a.expand v) = true := by
  simp only [BB.contains_iff, BB.expand, BB.Mem]
  refine ⟨⟨min_le_left _ _, le_max_left _ _, min_le_left _ _, le_max_left _ _⟩,
    ⟨min_le_right _ _, le_max_right _ _, min_le_right _ _, le_max_right _ _⟩, ?_⟩
  rintro c ⟨h1, h2, h3, h4⟩ ⟨k1, k2, k3, k4⟩
  exact ⟨le_min h1 k1, max_le h2 k2, le_min h3 k3, max_le h4 k4⟩

/-- **C11** (any scalars): `MergedArea` is the area of `Merge`, computed identically. -/
theorem C11_mergedArea (a b : BB F) : a.mergedArea b = (a.merge b).area := rfl

/-- **C41** (any scalars): `Clamp` with ordered limits lies in the range and is the identity there. -/
theorem C41_clamp_range (f mn mx : F) (h : mn ≤ mx) :
    mn ≤ clamp f mn mx ∧ clamp f mn mx ≤ mx ∧ (mn ≤ f → f ≤ mx → clamp f mn mx = f) := by
  unfold clamp
  split
  · rename_i hf
    exact ⟨le_min hf.le h, min_le_right _ _, fun _ h2 => min_eq_left h2⟩
  · rename_i hf
    rw [min_eq_left h]
    exact ⟨le_refl _, h, fun h1 _ => le_antisymm h1 (not_lt.mp hf)⟩
end order

theorem clamp_eq_real (f mn mx : ℝ) (h : mn ≤ mx) : clamp f mn mx = max mn (min f mx) := by
  unfold clamp
  split
  · rename_i hf; rw [max_eq_right (le_min hf.le h)]
  · rename_i hf
    rw [min_eq_left h, min_eq_left ((not_lt.mp hf).trans h), max_eq_left (not_lt.mp hf)]

theorem clamp_nearest (f mn mx g : ℝ) (h : mn ≤ mx) (h1 : mn ≤ g) (h2 : g ≤ mx) :
    |f - clamp f mn mx| ≤ |f - g| := by
  unfold clamp
  split
  · rename_i hf
    rcases le_total f mx with h3 | h3
    · rw [min_eq_left h3]; simp
    · rw [min_eq_right h3, abs_of_nonneg (by linarith), abs_of_nonneg (by linarith)]; linarith
  · rename_i hf
    push Not at hf
    rw [min_eq_left h, abs_of_nonpos (by linarith), abs_of_nonpos (by linarith)]; linarith

/-- **C11**: `ClampVect` returns the point of the box nearest to its argument. -/
theorem C11_clampVect (bb : BB ℝ) (hp : bb.Proper) (v : Vec ℝ) :
    bb.Mem (bb.clampVect v) ∧ ∀ q, bb.Mem q → v.distance (bb.clampVect v) ≤ v.distance q := by
  have hx := C41_clamp_range v.x bb.l bb.r hp.1
  have hy := C41_clamp_range v.y bb.b bb.t hp.2
  refine ⟨⟨hx.1, hx.2.1, hy.1, hy.2.1⟩, ?_⟩
  rintro q ⟨h1, h2, h3, h4⟩
  simp only [Vec.distance, Vec.length, Vec.dot, Vec.sub, BB.clampVect, sqrt_real]
  apply Real.sqrt_le_sqrt
  have ax := clamp_nearest v.x bb.l bb.r q.x hp.1 h1 h2
  have ay := clamp_nearest v.y bb.b bb.t q.y hp.2 h3 h4
  have := sq_le_sq.mpr ax
  have := sq_le_sq.mpr ay
  nlinarith

theorem max_abs_add_sub (a b : ℝ) : max |a + b| |a - b| = |a| + |b| := by
  rcases le_total 0 a with ha | ha <;> rcases le_total 0 b with hb | hb
  · rw [max_eq_left, abs_of_nonneg ha, abs_of_nonneg hb, abs_of_nonneg (by linarith)]
    rw [abs_of_nonneg (by linarith : 0 ≤ a + b), abs_le]; constructor <;> linarith
  · rw [max_eq_right, abs_of_nonneg ha, abs_of_nonpos hb, abs_of_nonneg (by linarith)]; · ring
    rw [abs_of_nonneg (by linarith : 0 ≤ a - b), abs_le]; constructor <;> linarith
  · rw [max_eq_right, abs_of_nonpos ha, abs_of_nonneg hb, abs_of_nonpos (by linarith)]; · ring
    rw [abs_of_nonpos (by linarith : a - b ≤ 0), abs_le]; constructor <;> linarith
  · rw [max_eq_left, abs_of_nonpos ha, abs_of_nonpos hb, abs_of_nonpos (by linarith)]; · ring
    rw [abs_of_nonpos (by linarith : a + b ≤ 0), abs_le]; constructor <;> linarith

theorem abs_mul_le_of_abs_le {k x h : ℝ} (hx : |x| ≤ h) : |k * x| ≤ |k * h| := by
  rw [abs_mul, abs_mul]
  exact mul_le_mul_of_nonneg_left (hx.trans (le_abs_self h)) (abs_nonneg k)

/-- **C11**: `Transform.BB` contains the image of every point of the box. -/
theorem C11_transformBB_sound (t : Transform ℝ) (bb : BB ℝ) (p : Vec ℝ) (h : bb.Mem p) :
    (t.bb bb).Mem (t.point p) := by
  obtain ⟨h1, h2, h3, h4⟩ := h
  simp only [Transform.bb, BB.forExtents, BB.Mem, Transform.point, BB.center, Vec.lerp, Vec.add,
    Vec.mult, lit_real, fabs_real, max_abs_add_sub]
  push_cast
  have dx : |p.x - (bb.l + bb.r) / 2| ≤ (bb.r - bb.l) / 2 := by
    rw [abs_le]; constructor <;> linarith
  have dy : |p.y - (bb.b + bb.t) / 2| ≤ (bb.t - bb.b) / 2 := by
    rw [abs_le]; constructor <;> linarith
  have ha := abs_le.mp (abs_mul_le_of_abs_le (k := t.a) dx)
  have hb := abs_le.mp (abs_mul_le_of_abs_le (k := t.b) dx)
  have hc := abs_le.mp (abs_mul_le_of_abs_le (k := t.c) dy)
  have hd := abs_le.mp (abs_mul_le_of_abs_le (k := t.d) dy)
  have e1 : (bb.r - bb.l) * (1 / 2) = (bb.r - bb.l) / 2 := by ring
  have e2 : (bb.t - bb.b) * (1 / 2) = (bb.t - bb.b) / 2 := by ring
  rw [e1, e2]
  refine ⟨?_, ?_, ?_, ?_⟩ <;> nlinarith [ha.1, ha.2, hb.1, hb.2, hc.1, hc.2, hd.1, hd.2]

/-- **C11**: `Transform.BB` is the least box containing the image of a proper box. -/
theorem C11_transformBB_least (t : Transform ℝ) (bb : BB ℝ) (hp : bb.Proper) (c : BB ℝ)
    (hc : ∀ p, bb.Mem p → c.Mem (t.point p)) : c.contains (t.bb bb) = true := by
  obtain ⟨hx, hy⟩ := hp
  have k1 := hc ⟨bb.l, bb.b⟩ ⟨le_refl _, hx, le_refl _, hy⟩
  have k2 := hc ⟨bb.l, bb.t⟩ ⟨le_refl _, hx, hy, le_refl _⟩
  have k3 := hc ⟨bb.r, bb.b⟩ ⟨hx, le_refl _, le_refl _, hy⟩
  have k4 := hc ⟨bb.r, bb.t⟩ ⟨hx, le_refl _, hy, le_refl _⟩
  rw [BB.contains_iff]
  simp only [Transform.bb, BB.forExtents, BB.Mem, Transform.point, BB.center, Vec.lerp, Vec.add,
    Vec.mult, lit_real, fabs_real] at *
  push_cast
  have e : ∀ a b : ℝ, max |a + b| |a - b| = max (max (a + b) (-(a + b))) (max (a - b) (-(a - b))) := by
    intro a b; rfl
  rw [e, e]
  refine ⟨?_, ?_, ?_, ?_⟩
  · rw [le_sub_comm]
    refine max_le (max_le ?_ ?_) (max_le ?_ ?_) <;> linarith [k1.1, k2.1, k3.1, k4.1]
  · rw [← le_sub_iff_add_le']
    refine max_le (max_le ?_ ?_) (max_le ?_ ?_) <;> linarith [k1.2.1, k2.2.1, k3.2.1, k4.2.1]
  · rw [le_sub_comm]
    refine max_le (max_le ?_ ?_) (max_le ?_ ?_) <;> linarith [k1.2.2.1, k2.2.2.1, k3.2.2.1, k4.2.2.1]
  · rw [← le_sub_iff_add_le']
    refine max_le (max_le ?_ ?_) (max_le ?_ ?_) <;> linarith [k1.2.2.2, k2.2.2.2, k3.2.2.2, k4.2.2.2]

/-- Non-vacuity for C11. -/
example : (⟨0, 0, 2, 1⟩ : BB ℝ).Proper ∧ (⟨1, 0, 3, 1⟩ : BB ℝ).Proper ∧
    (⟨0, 0, 2, 1⟩ : BB ℝ).Mem ⟨1, 1⟩ := by
  refine ⟨⟨by norm_num, by norm_num⟩, ⟨by norm_num, by norm_num⟩, ?_⟩
  simp only [BB.Mem]; norm_num

/-! ## C12 -/

/-- **C12**: `Mult` composes: applying the product is applying the second, then the first. -/
theorem C12_mult_point (t u : Transform ℝ) (p : Vec ℝ) :
    (t.mult u).point p = t.point (u.point p) := by
  ext <;> simp only [Transform.mult, Transform.point, Transform.transpose] <;> ring

theorem C12_mult_vect (t u : Transform ℝ) (p : Vec ℝ) :
    (t.mult u).vect p = t.vect (u.vect p) := by
  ext <;> simp only [Transform.mult, Transform.vect, Transform.transpose] <;> ring

theorem C12_mult_assoc (t u w : Transform ℝ) : (t.mult u).mult w = t.mult (u.mult w) := by
  ext <;> simp only [Transform.mult, Transform.transpose] <;> ring

theorem C12_identity (t : Transform ℝ) (p : Vec ℝ) :
    (Transform.identity : Transform ℝ).mult t = t ∧ t.mult Transform.identity = t ∧
    (Transform.identity : Transform ℝ).point p = p := by
  refine ⟨?_, ?_, ?_⟩ <;> ext <;>
    simp only [Transform.mult, Transform.transpose, Transform.identity, Transform.point] <;> ring

/-- **C12**: `Inverse` is a two-sided inverse whenever the determinant is not zero. -/
theorem C12_inverse (t : Transform ℝ) (hd : t.a * t.d - t.c * t.b ≠ 0) :
    t.mult t.inverse = Transform.identity ∧ t.inverse.mult t = Transform.identity ∧
    (∀ p, t.inverse.point (t.point p) = p) ∧ (∀ p, t.point (t.inverse.point p) = p) := by
  have hk : (t.a * t.d - t.c * t.b) * (1 / (t.a * t.d - t.c * t.b)) = 1 := mul_one_div_cancel hd
  have h1 : t.mult t.inverse = Transform.identity := by
    simp only [Transform.mult, Transform.transpose, Transform.identity, Transform.inverse]
    generalize 1 / (t.a * t.d - t.c * t.b) = k at hk
    ext
    · linear_combination hk
    · ring
    · ring
    · linear_combination hk
    · linear_combination (-t.tx) * hk
    · linear_combination (-t.ty) * hk
  have h2 : t.inverse.mult t = Transform.identity := by
    simp only [Transform.mult, Transform.transpose, Transform.identity, Transform.inverse]
    generalize 1 / (t.a * t.d - t.c * t.b) = k at hk
    ext
    · linear_combination hk
    · ring
    · ring
    · linear_combination hk
    · ring
    · ring
  refine ⟨h1, h2, fun p => ?_, fun p => ?_⟩
  · rw [← C12_mult_point, h2, (C12_identity t p).2.2]
  · rw [← C12_mult_point, h1, (C12_identity t p).2.2]

/-- **C12**: `NewTransformRigidInverse` inverts every rigid transform
(more generally every transform of determinant 1). -/
theorem C12_rigidInverse (v : Vec ℝ) (θ : ℝ) (p : Vec ℝ) :
    (Transform.rigid v θ).rigidInverse.point ((Transform.rigid v θ).point p) = p ∧
    (Transform.rigid v θ).point ((Transform.rigid v θ).rigidInverse.point p) = p ∧
    (Transform.rigid v θ).rigidInverse = (Transform.rigid v θ).inverse := by
  have h := Real.sin_sq_add_cos_sq θ
  refine ⟨?_, ?_, ?_⟩
  · ext <;> simp only [Transform.rigid, Transform.rigidInverse, Transform.transpose, Transform.point,
      Vec.forAngle, sin_real, cos_real]
    · linear_combination p.x * h
    · linear_combination p.y * h
  · ext <;> simp only [Transform.rigid, Transform.rigidInverse, Transform.transpose, Transform.point,
      Vec.forAngle, sin_real, cos_real]
    · linear_combination (p.x - v.x) * h
    · linear_combination (p.y - v.y) * h
  · have hd : Real.cos θ * Real.cos θ - -Real.sin θ * Real.sin θ = 1 := by linear_combination h
    ext <;> simp only [Transform.rigid, Transform.rigidInverse, Transform.inverse, Transform.transpose,
      Vec.forAngle, sin_real, cos_real, hd] <;> ring

/-- **C12**: rigid transforms preserve distances and cross products, and act as "rotate, then translate". -/
theorem C12_rigid_isometry (v : Vec ℝ) (θ : ℝ) (p q : Vec ℝ) :
    ((Transform.rigid v θ).point p).distance ((Transform.rigid v θ).point q) = p.distance q ∧
    ((Transform.rigid v θ).vect p).cross ((Transform.rigid v θ).vect q) = p.cross q ∧
    ((Transform.rigid v θ).vect p).dot ((Transform.rigid v θ).vect q) = p.dot q ∧
    (Transform.rigid v θ).point p = v.add (p.rotate (Vec.forAngle θ)) := by
  have h := Real.sin_sq_add_cos_sq θ
  refine ⟨?_, ?_, ?_, ?_⟩
  · simp only [Vec.distance, Vec.length, Vec.dot, Vec.sub, Transform.rigid, Transform.transpose,
      Transform.point, Vec.forAngle, sin_real, cos_real, sqrt_real]
    congr 1
    linear_combination ((p.x - q.x) ^ 2 + (p.y - q.y) ^ 2) * h
  · simp only [Vec.cross, Transform.rigid, Transform.transpose,
      Transform.vect, Vec.forAngle, sin_real, cos_real]
    linear_combination (p.x * q.y - p.y * q.x) * h
  · simp only [Vec.dot, Transform.rigid, Transform.transpose,
      Transform.vect, Vec.forAngle, sin_real, cos_real]
    linear_combination (p.x * q.x + p.y * q.y) * h
  · ext <;> simp only [Transform.rigid, Transform.transpose, Transform.point, Vec.add, Vec.rotate,
      Vec.forAngle, sin_real, cos_real] <;> ring

/-- **C12**: translation, scaling and rotation constructors do what they say, and `NewTransformRigid` is
the translation after the rotation. -/
theorem C12_constructors (v p : Vec ℝ) (sx sy θ : ℝ) :
    (Transform.translate v).point p = p.add v ∧
    (Transform.scale sx sy).point p = ⟨sx * p.x, sy * p.y⟩ ∧
    (Transform.rotate θ).point p = p.rotate (Vec.forAngle θ) ∧
    (Transform.rigid v θ) = (Transform.translate v).mult (Transform.rotate θ) := by
  refine ⟨?_, ?_, ?_, ?_⟩ <;> ext <;>
    simp only [Transform.translate, Transform.scale, Transform.rotate, Transform.rigid,
      Transform.transpose, Transform.point, Transform.mult, Vec.add, Vec.rotate, Vec.forAngle] <;> ring

/-- **C12**: `Wrap` conjugates: `t.Wrap(inner)` performs `inner` in the coordinates of `t`. -/
theorem C12_wrap (t inner : Transform ℝ) (hd : t.a * t.d - t.c * t.b ≠ 0) (p : Vec ℝ) :
    t.point ((t.wrap inner).point p) = inner.point (t.point p) := by
  unfold Transform.wrap
  rw [C12_mult_point, (C12_inverse t hd).2.2.2, C12_mult_point]

/-- **C12**: `Ortho` maps a box of non-zero size onto the square [-1,1]². -/
theorem C12_ortho (bb : BB ℝ) (hx : bb.l < bb.r) (hy : bb.b < bb.t) :
    (Transform.ortho bb).point ⟨bb.l, bb.b⟩ = ⟨-1, -1⟩ ∧
    (Transform.ortho bb).point ⟨bb.r, bb.t⟩ = ⟨1, 1⟩ := by
  have h1 : bb.r - bb.l ≠ 0 := by linarith
  have h2 : bb.t - bb.b ≠ 0 := by linarith
  constructor <;> ext <;>
    simp only [Transform.ortho, Transform.transpose, Transform.point, lit_real] <;>
    push_cast <;> field_simp <;> ring

/-- **C12**: `BoneScale` maps the origin to `v0` and the unit x vector to `v1`. -/
theorem C12_boneScale (v0 v1 : Vec ℝ) :
    (Transform.boneScale v0 v1).point ⟨0, 0⟩ = v0 ∧
    (Transform.boneScale v0 v1).point ⟨1, 0⟩ = v1 := by
  constructor <;> ext <;>
    simp only [Transform.boneScale, Transform.transpose, Transform.point, Vec.sub] <;> ring

/-- **C12**: `AxialScale` fixes the pivot and scales the component along a unit axis. -/
theorem C12_axialScale (axis pivot v : Vec ℝ) (s : ℝ) (hu : axis.dot axis = 1) :
    (Transform.axialScale axis pivot s).point (pivot.add v) =
      pivot.add (v.add (axis.mult ((s - 1) * axis.dot v))) := by
  simp only [Vec.dot] at hu
  ext <;> simp only [Transform.axialScale, Transform.transpose, Transform.point, Vec.add, Vec.mult,
    Vec.dot]
  · linear_combination (pivot.x + v.x) * hu
  · linear_combination (pivot.y + v.y) * hu

example : (1 : ℝ) * 1 - 0 * 0 ≠ 0 ∧ (⟨3 / 5, 4 / 5⟩ : Vec ℝ).dot ⟨3 / 5, 4 / 5⟩ = 1 := by
  simp only [Vec.dot]; norm_num

/-! ## C41 -/

/-- **C41**: `Clamp` is the nearest value of the interval. -/
theorem C41_clamp_nearest (f mn mx g : ℝ) (h : mn ≤ mx) (h1 : mn ≤ g) (h2 : g ≤ mx) :
    |f - clamp f mn mx| ≤ |f - g| := clamp_nearest f mn mx g h h1 h2

/-- **C41**: `Clamp01` is `Clamp` to [0,1]. -/
theorem C41_clamp01 (f : ℝ) : clamp01 f = clamp f 0 1 ∧ 0 ≤ clamp01 f ∧ clamp01 f ≤ 1 := by
  refine ⟨(clamp_eq_real f 0 1 zero_le_one).symm, le_max_left _ _, max_le zero_le_one (min_le_right _ _)⟩

/-- **C41**: `LerpConst` never moves further than `d`, never overshoots, and arrives when near enough. -/
theorem C41_lerpConst (f1 f2 d : ℝ) (hd : 0 ≤ d) :
    |lerpConst f1 f2 d - f1| ≤ d ∧ (|f2 - f1| ≤ d → lerpConst f1 f2 d = f2) ∧
    min f1 f2 ≤ lerpConst f1 f2 d ∧ lerpConst f1 f2 d ≤ max f1 f2 ∧
    |f2 - lerpConst f1 f2 d| = max 0 (|f2 - f1| - d) := by
  have hr := C41_clamp_range (f2 - f1) (-d) d (by linarith)
  unfold lerpConst
  have hc := clamp_eq_real (f2 - f1) (-d) d (by linarith)
  refine ⟨?_, ?_, ?_, ?_, ?_⟩
  · rw [abs_le]; constructor <;> linarith [hr.1, hr.2.1]
  · intro h; rw [abs_le] at h; rw [hr.2.2 h.1 h.2]; ring
  · rw [hc]
    rcases le_total f1 f2 with h | h
    · rw [min_eq_left h]
      have : 0 ≤ max (-d) (min (f2 - f1) d) := le_max_of_le_right (le_min (by linarith) hd)
      linarith
    · rw [min_eq_right h]
      have : f2 - f1 ≤ max (-d) (min (f2 - f1) d) := le_max_of_le_right (le_min (le_refl _) (by linarith))
      linarith
  · rw [hc]
    rcases le_total f1 f2 with h | h
    · rw [max_eq_right h]
      have : max (-d) (min (f2 - f1) d) ≤ f2 - f1 := max_le (by linarith) (min_le_left _ _)
      linarith
    · rw [max_eq_left h]
      have : max (-d) (min (f2 - f1) d) ≤ 0 := max_le (by linarith) (min_le_of_left_le (by linarith))
      linarith
  · rw [hc]
    rcases le_total (f2 - f1) d with h | h
    · rcases le_total (-d) (f2 - f1) with h' | h'
      · rw [min_eq_left h, max_eq_right h', max_eq_left (by
          have := abs_le.mpr ⟨h', h⟩; linarith)]
        simp
      · rw [min_eq_left h, max_eq_left h', abs_of_nonpos (by linarith),
          abs_of_nonpos (by linarith), max_eq_right (by linarith)]
        ring
    · rw [min_eq_right h, max_eq_right (by linarith), abs_of_nonneg (by linarith),
          abs_of_nonneg (by linarith), max_eq_right (by linarith)]
      ring

/-- **C41**: `Lerp` hits its end points, and for vectors too. -/
theorem C41_lerp (f1 f2 : ℝ) (v o : Vec ℝ) :
    lerp f1 f2 0 = f1 ∧ lerp f1 f2 1 = f2 ∧ v.lerp o 0 = v ∧ v.lerp o 1 = o := by
  refine ⟨?_, ?_, ?_, ?_⟩
  · simp only [lerp]; ring
  · simp only [lerp]; ring
  · ext <;> simp only [Vec.lerp, Vec.add, Vec.mult] <;> ring
  · ext <;> simp only [Vec.lerp, Vec.add, Vec.mult] <;> ring

theorem Vec.length_nonneg (v : Vec ℝ) : 0 ≤ v.length := Real.sqrt_nonneg _

theorem Vec.dot_self_nonneg (v : Vec ℝ) : 0 ≤ v.dot v :=
  add_nonneg (mul_self_nonneg v.x) (mul_self_nonneg v.y)

theorem Vec.length_sq (v : Vec ℝ) : v.length ^ 2 = v.dot v := Real.sq_sqrt v.dot_self_nonneg

theorem Vec.length_mult (v : Vec ℝ) (s : ℝ) : (v.mult s).length = v.length * |s| := by
  have : (v.mult s).dot (v.mult s) = v.dot v * s ^ 2 := by
    simp only [Vec.dot, Vec.mult]; ring
  simp only [Vec.length, sqrt_real]
  rw [this, Real.sqrt_mul v.dot_self_nonneg, Real.sqrt_sq_eq_abs]

/-- **C41**: `Normalize` returns a vector of length below 1 pointing the same way; the length is 1 up to the
`1e-15` guard: exactly `|v| / (|v| + 1e-15)`. -/
theorem C41_normalize (v : Vec ℝ) :
    v.normalize.length = v.length / (v.length + 1 / 10 ^ 15) ∧ v.normalize.length < 1 ∧
    v.normalize.cross v = 0 ∧ 0 ≤ v.normalize.dot v := by
  have h0 := v.length_nonneg
  have hpos : 0 < v.length + 1 / 10 ^ 15 := by positivity
  have hl : v.normalize.length = v.length / (v.length + 1 / 10 ^ 15) := by
    unfold Vec.normalize
    rw [Vec.length_mult, lit_real]
    push_cast
    rw [abs_of_nonneg (by positivity)]
    ring
  refine ⟨hl, ?_, ?_, ?_⟩
  · rw [hl, div_lt_one hpos]
    have : (0 : ℝ) < 1 / 10 ^ 15 := by positivity
    linarith
  · simp only [Vec.normalize, Vec.mult, Vec.cross]; ring
  · have : v.normalize.dot v = v.dot v * (1 / (v.length + 1 / 10 ^ 15)) := by
      simp only [Vec.normalize, Vec.mult, Vec.dot, lit_real]; push_cast; ring
    rw [this]
    exact mul_nonneg v.dot_self_nonneg (by positivity)

/-- **C41**: `Vector.Clamp` never exceeds the given length, keeps the direction, and leaves shorter vectors alone. -/
theorem C41_clampLen (v : Vec ℝ) (l : ℝ) (hl : 0 ≤ l) :
    (v.clampLen l).length ≤ l ∧ (v.length ≤ l → v.clampLen l = v) ∧
    ∃ s : ℝ, 0 ≤ s ∧ s ≤ 1 ∧ v.clampLen l = v.mult s := by
  have h0 := v.length_nonneg
  unfold Vec.clampLen
  split
  · rename_i h
    have hlt : l < v.length := by
      by_contra hc; push Not at hc
      have := v.length_sq; nlinarith
    refine ⟨?_, fun hc => absurd hc (not_le.mpr hlt), ?_⟩
    · rw [Vec.length_mult, abs_of_nonneg hl]
      have := (C41_normalize v).2.1
      nlinarith [v.normalize.length_nonneg]
    · have hpos : 0 < v.length + 1 / 10 ^ 15 := by positivity
      refine ⟨l / (v.length + 1 / 10 ^ 15), by positivity, ?_, ?_⟩
      · rw [div_le_one hpos]
        have : (0 : ℝ) < 1 / 10 ^ 15 := by positivity
        linarith
      · ext <;> simp only [Vec.normalize, Vec.mult, lit_real] <;> push_cast <;> ring
  · rename_i h
    push Not at h
    refine ⟨?_, fun _ => rfl, 1, zero_le_one, le_refl _, ?_⟩
    · have := v.length_sq
      exact abs_le_of_sq_le_sq' (by nlinarith) hl |>.2
    · ext <;> simp only [Vec.mult] <;> ring

/-- **C41**: `Vector.LerpConst` moves towards the target on the straight line, by at most `d`, and arrives
when the target is at most `d` away. -/
theorem C41_vec_lerpConst (v o : Vec ℝ) (d : ℝ) (hd : 0 ≤ d) :
    (v.lerpConst o d).distance v ≤ d ∧ (o.distance v ≤ d → v.lerpConst o d = o) ∧
    ∃ s : ℝ, 0 ≤ s ∧ s ≤ 1 ∧ v.lerpConst o d = v.add ((o.sub v).mult s) := by
  obtain ⟨h1, h2, s, h3, h4, h5⟩ := C41_clampLen (o.sub v) d hd
  have e : ∀ w : Vec ℝ, (v.add w).sub v = w := by
    intro w; ext <;> simp only [Vec.add, Vec.sub] <;> ring
  refine ⟨?_, ?_, s, h3, h4, ?_⟩
  · unfold Vec.distance Vec.lerpConst; rw [e]; exact h1
  · intro h
    unfold Vec.lerpConst; rw [h2 h]
    ext <;> simp only [Vec.add, Vec.sub] <;> ring
  · unfold Vec.lerpConst; rw [h5]

example : (0 : ℝ) ≤ 2 ∧ (2 : ℝ) * 2 < (⟨3, 4⟩ : Vec ℝ).dot ⟨3, 4⟩ := by
  simp only [Vec.dot]; norm_num

end CP
