import Verif.Props.ContactFound
import Verif.Props.RayShapes

/-! # C48: contact ids; examples and violations -/

namespace CP
open GoFloat Coll

/-! ### Shapes as they are made -/

theorem NotFlat.map {l : List (Vec ℝ)} (h : NotFlat l) {t : Transform ℝ} (ht : t.IsRigid) : NotFlat (l.map t.point) := by
  obtain ⟨h1, h2, h3⟩ := ht
  have hdot : ∀ p q r s : Vec ℝ, ((t.point p).sub (t.point q)).dot ((t.point r).sub (t.point s)) = (p.sub q).dot (r.sub s) := by
    intro p q r s
    simp only [Transform.point, Vec.sub, Vec.dot, h2, h3]
    linear_combination ((p.x - q.x) * (r.x - s.x) + (p.y - q.y) * (r.y - s.y)) * h1
  have hlen : ∀ p q : Vec ℝ, ((t.point p).sub (t.point q)).length = (p.sub q).length := by
    intro p q
    simp only [Vec.length]
    rw [hdot p q p q]
  intro e he f hf hef
  rw [edges_map] at he hf
  obtain ⟨e', he', rfl⟩ := List.mem_map.1 he
  obtain ⟨f', hf', rfl⟩ := List.mem_map.1 hf
  have hinj : ∀ {p q : Vec ℝ}, t.point p = t.point q → p = q := fun {p q} => Transform.IsRigid.inj ⟨h1, h2, h3⟩
  have := h e' he' f' hf' (by
    rcases hef with h | h
    · exact .inl (hinj h)
    · exact .inr (hinj h))
  simp only [hdot, hlen]
  exact this

/-- The shapes `NewSegment` and `NewPolyShape` (with a strictly convex polygon that is not nearly flat at a corner) make, wherever
their body is, are of the kind the theorems speak of. -/
theorem C48_sided (t : Transform ℝ) (ht : t.IsRigid) :
    (∀ p q r, Sided (.seg ((Segment.new p q r).cacheData t).1) ∧ FreeEnds (.seg ((Segment.new p q r).cacheData t).1)) ∧
    (∀ verts r, StrictlyConvex verts → NotFlat verts → Sided (.poly ((Poly.new verts r).cacheData t).1) ∧
      FreeEnds (.poly ((Poly.new verts r).cacheData t).1)) := by
  constructor
  · intro p q r
    refine ⟨⟨1 / ((q.sub p).length + lit (1 / 10 ^ 15)), ?_, ?_⟩, rfl, rfl⟩
    · have hlen : 0 ≤ (q.sub p).length := by simp only [Vec.length, sqrt_real]; exact Real.sqrt_nonneg _
      have : (0 : ℝ) < lit (1 / 10 ^ 15) := by rw [lit_real]; norm_num
      exact one_div_pos.2 (by linarith)
    · obtain ⟨h1, h2, h3⟩ := ht
      ext <;> simp only [Segment.cacheData, Segment.new, Transform.vect, Transform.point, Vec.normalize, Vec.mult, Vec.rperp, Vec.sub, h2, h3] <;> ring
  · intro verts r hc hf
    exact ⟨⟨verts.map t.point, (C30_poly_world verts r t ht).1, hc.map ht, hf.map ht⟩, trivial⟩

example : StrictlyConvex sq2 ∧ NotFlat sq2 := by
  refine ⟨sq2_convex, ?_⟩
  have hs : Real.sqrt 4 = 2 := by
    rw [show (4 : ℝ) = 2 * 2 by norm_num]; exact Real.sqrt_mul_self (by norm_num)
  intro e he f hf hef
  simp only [sq2, edges, pairsFrom, List.getLast?, List.getLast, List.mem_cons, List.not_mem_nil, or_false] at he hf
  rcases he with rfl | rfl | rfl | rfl <;> rcases hf with rfl | rfl | rfl | rfl
  all_goals first
    | (exfalso; norm_num [Vec.mk.injEq] at hef; done)
    | (norm_num [Vec.sub, Vec.dot, Vec.length, hs])

/-! ### Two parallel bars -/

/-- A horizontal bar from `(-1, y)` to `(1, y)` of radius 1 with the normal `(0, k)`. -/
noncomputable def barSeg (y k : ℝ) : Segment ℝ := ⟨⟨-1, y⟩, ⟨1, y⟩, ⟨0, k⟩, ⟨-1, y⟩, ⟨1, y⟩, ⟨0, k⟩, 1, ⟨0, 0⟩, ⟨0, 0⟩⟩
noncomputable def bar (y k : ℝ) (h : Word) : Shp ℝ := ⟨.seg (barSeg y k), ⟨-2, y - 1, 2, y + 1⟩, ⟨1, 0⟩, h⟩

theorem bar_proper (y k : ℝ) (h : Word) (hy : |y| ≤ 2) (hk : k * k ≤ 1) : Proper (bar y k h).cls := by
  have e : (2 : ℝ) ≤ 2 ^ 500 := by
    calc (2 : ℝ) = 2 ^ 1 := by norm_num
      _ ≤ 2 ^ 500 := pow_le_pow_right₀ (by norm_num) (by norm_num)
  refine ⟨⟨by simp [bar, Cls.verts], by simp [bar, Cls.verts], ?_⟩, by norm_num [bar, barSeg, Cls.radius], ?_⟩
  · intro v hv
    simp only [bar, barSeg, Cls.verts, List.mem_cons, List.not_mem_nil, or_false] at hv
    rcases hv with rfl | rfl <;> constructor
    all_goals first | exact hy.trans e | (refine le_trans ?_ e; norm_num)
  · intro g hg
    simp only [bar, Cls.seg.injEq] at hg
    subst hg
    refine ⟨?_, by simpa [barSeg, Vec.dot] using hk⟩
    intro h
    have := congrArg Vec.x h
    norm_num [barSeg] at this

theorem bar_sided (y k : ℝ) (h : Word) (hk : k < 0) : Sided (bar y k h).cls :=
  ⟨-k / 2, by linarith, by ext <;> norm_num [barSeg, Vec.sub, Vec.rperp, Vec.mult] <;> ring⟩

theorem bar_free (y k : ℝ) (h : Word) : FreeEnds (bar y k h).cls := ⟨rfl, rfl⟩

theorem bars_gjk (k k' : ℝ) (h h' : Word) : gjk (bar 0 k h) (bar (3 / 2) k' h') 0 =
    some (Mink.closestPoints (F := ℝ) ⟨⟨-1, 0⟩, ⟨1, 3 / 2⟩, ⟨2, 3 / 2⟩, 1⟩ ⟨⟨1, 0⟩, ⟨-1, 3 / 2⟩, ⟨-2, 3 / 2⟩, 256⟩, .axis) := by
  have e1 : ((bar 0 k h).bb.center.sub (bar (3 / 2) k' h').bb.center).perp = (⟨3 / 2, 0⟩ : Vec ℝ) := by
    ext <;> norm_num [bar, BB.center, Vec.lerp, Vec.add, Vec.mult, Vec.sub, Vec.perp]
  have start : gjkStart (bar 0 k h) (bar (3 / 2) k' h') 0 =
      (⟨⟨-1, 0⟩, ⟨1, 3 / 2⟩, ⟨2, 3 / 2⟩, 1⟩, ⟨⟨1, 0⟩, ⟨-1, 3 / 2⟩, ⟨-2, 3 / 2⟩, 256⟩) := by
    simp only [gjkStart, ne_eq, not_true_eq_false, if_false, e1]
    simp only [supportM, Cls.support, bar, barSeg]
    norm_num [Mink.new, Vec.sub, Vec.dot, Vec.neg]
  unfold gjk
  rw [start]
  simp only
  have t1 : (⟨2, 3 / 2⟩ : Vec ℝ).closestT ⟨-2, 3 / 2⟩ = 0 := by
    norm_num [Vec.closestT, Vec.sub, Vec.lengthSq, Vec.dot, Vec.add, clamp]
  rw [gjk_axis (n := ⟨0, -4⟩) (p := ⟨⟨1, 0⟩, ⟨1, 3 / 2⟩, ⟨0, 3 / 2⟩, 257⟩)]
  · norm_num [Vec.pointGreater]
  · simp only [gjkAxis, t1]; norm_num [Vec.sub, Vec.perp]
  · simp only [supportM, Cls.support, bar, barSeg]
    norm_num [Mink.new, Vec.sub, Vec.dot, Vec.neg]
  · norm_num [Vec.pointGreater]
  · norm_num [Vec.checkAxis, Vec.dot]

/-- Almost 1. -/
noncomputable def almost : ℝ := 4 / (4 + 1 / 10 ^ 15)

theorem almost_bounds : 9 / 10 < almost ∧ almost < 1 := by unfold almost; constructor <;> norm_num

theorem bars_closest : Mink.closestPoints (F := ℝ) ⟨⟨-1, 0⟩, ⟨1, 3 / 2⟩, ⟨2, 3 / 2⟩, 1⟩ ⟨⟨1, 0⟩, ⟨-1, 3 / 2⟩, ⟨-2, 3 / 2⟩, 256⟩ =
    ⟨⟨0, 0⟩, ⟨0, 3 / 2⟩, ⟨0, almost⟩, 3 / 2 * almost, 65792⟩ := by
  have t1 : (⟨2, 3 / 2⟩ : Vec ℝ).closestT ⟨-2, 3 / 2⟩ = 0 := by
    norm_num [Vec.closestT, Vec.sub, Vec.lengthSq, Vec.dot, Vec.add, clamp]
  have hs : Real.sqrt (4 * 4) = 4 := Real.sqrt_mul_self (by norm_num)
  have hn : ((⟨-2, 3 / 2⟩ : Vec ℝ).sub ⟨2, 3 / 2⟩).rperp.normalize = ⟨0, almost⟩ := by
    have hl : (⟨0, 4⟩ : Vec ℝ).length = 4 := by
      simp only [Vec.length, Vec.dot, sqrt_real]; rw [← hs]; congr 1; norm_num
    have he : ((⟨-2, 3 / 2⟩ : Vec ℝ).sub ⟨2, 3 / 2⟩).rperp = ⟨0, 4⟩ := by norm_num [Vec.sub, Vec.rperp]
    rw [he, Vec.normalize, hl]
    ext
    · norm_num [Vec.mult]
    · simp only [Vec.mult, lit_real, almost]; norm_num
  unfold Mink.closestPoints
  simp only [t1, hn]
  rw [if_pos (by right; norm_num)]
  simp only [Closest.mk.injEq]
  refine ⟨?_, ?_, trivial, ?_, ?_⟩
  · ext <;> norm_num [Vec.lerpT, Vec.add, Vec.mult]
  · ext <;> norm_num [Vec.lerpT, Vec.add, Vec.mult]
  · norm_num [Vec.lerpT, Vec.add, Vec.mult, Vec.dot]; ring
  · norm_num

/-- The facing sides of the bars. -/
theorem bar_facing (y k : ℝ) (h : Word) {κ : ℝ} (hκ : κ ≠ 0) {e : Vec ℝ × Vec ℝ} (he : Facing (bar y k h).cls.verts ⟨0, κ⟩ e) :
    e = if 0 < κ then (⟨1, y⟩, ⟨-1, y⟩) else (⟨-1, y⟩, ⟨1, y⟩) := by
  obtain ⟨hm, v, hv, -, hmax⟩ := he
  have hed : edges (bar y k h).cls.verts = [(⟨1, y⟩, ⟨-1, y⟩), (⟨-1, y⟩, ⟨1, y⟩)] := rfl
  rw [hed] at hm hmax
  have hL : ∀ u : Vec ℝ, 0 < u.length + tiny := fun u => by
    have : 0 ≤ u.length := Real.sqrt_nonneg _
    linarith [tiny_pos]
  have w1 : widthAlong ⟨1, y⟩ ⟨-1, y⟩ ⟨0, κ⟩ = 2 * κ := by simp only [widthAlong, Vec.sub, Vec.rperp, Vec.dot]; ring
  have w2 : widthAlong ⟨-1, y⟩ ⟨1, y⟩ ⟨0, κ⟩ = -(2 * κ) := by simp only [widthAlong, Vec.sub, Vec.rperp, Vec.dot]; ring
  have hvv : v = ⟨1, y⟩ ∨ v = ⟨-1, y⟩ := by
    simp only [List.mem_cons, List.not_mem_nil, or_false] at hm
    rcases hm with rfl | rfl <;> rcases hv with rfl | rfl <;> simp
  have f1 := hmax (⟨1, y⟩, ⟨-1, y⟩) (by simp) (by rcases hvv with rfl | rfl <;> simp)
  have f2 := hmax (⟨-1, y⟩, ⟨1, y⟩) (by simp) (by rcases hvv with rfl | rfl <;> simp)
  rw [outward_dot] at f1 f2
  simp only [w1, w2] at f1 f2
  simp only [List.mem_cons, List.not_mem_nil, or_false] at hm
  rcases lt_or_gt_of_ne hκ with hneg | hpos
  · rw [if_neg (not_lt.2 hneg.le)]
    rcases hm with rfl | rfl
    · exfalso
      rw [outward_dot] at f2
      simp only [w1] at f2
      have := div_pos (show 0 < -(2 * κ) by linarith) (hL ((⟨1, y⟩ : Vec ℝ).sub ⟨-1, y⟩))
      have := div_neg_of_neg_of_pos (show 2 * κ < 0 by linarith) (hL ((⟨-1, y⟩ : Vec ℝ).sub ⟨1, y⟩))
      linarith
    · rfl
  · rw [if_pos hpos]
    rcases hm with rfl | rfl
    · rfl
    · exfalso
      rw [outward_dot] at f1
      simp only [w2] at f1
      have := div_pos (show 0 < 2 * κ by linarith) (hL ((⟨-1, y⟩ : Vec ℝ).sub ⟨1, y⟩))
      have := div_neg_of_neg_of_pos (show -(2 * κ) < 0 by linarith) (hL ((⟨1, y⟩ : Vec ℝ).sub ⟨-1, y⟩))
      linarith

/-- The hypotheses of `C48_found` and `C48_over` are met by two bars of radius 1 whose cores are 3/2 apart. -/
theorem bars_ok (k k' : ℝ) (h h' : Word) : ∃ c : Closest ℝ, gjk (bar 0 k h) (bar (3 / 2) k' h') 0 = some (c, .axis) ∧ Regular c ∧
    OverlapEnough (bar 0 k h).cls (bar (3 / 2) k' h').cls c ∧
    (∀ e, Facing (bar 0 k h).cls.verts c.n e → 2 * tiny ≤ widthAlong e.1 e.2 c.n) ∧
    (∀ f, Facing (bar (3 / 2) k' h').cls.verts c.n.neg f → 0 < widthAlong f.1 f.2 c.n.neg) := by
  obtain ⟨a1, a2⟩ := almost_bounds
  have hneg : (⟨0, almost⟩ : Vec ℝ).neg = ⟨0, -almost⟩ := by simp [Vec.neg]
  refine ⟨_, by rw [bars_gjk, bars_closest], .inl (by simp only; linarith), ?_, ?_, ?_⟩
  · intro e f he hf
    simp only [hneg] at he hf ⊢
    have he := bar_facing _ _ _ (by linarith) he
    have hf := bar_facing _ _ _ (by linarith) hf
    rw [if_pos (by linarith)] at he
    rw [if_neg (by linarith)] at hf
    subst he hf
    have : tiny < 1 := by unfold tiny; norm_num
    norm_num [widthAlong, riseAlong, Vec.sub, Vec.rperp, Vec.dot, bar, barSeg, Cls.radius]
    refine ⟨by linarith, by linarith, ?_⟩
    nlinarith
  · intro e he
    have he := bar_facing _ _ _ (by linarith) he
    rw [if_pos (by linarith)] at he
    subst he
    have : tiny < 1 / 2 := by unfold tiny; norm_num
    simp only [widthAlong, Vec.sub, Vec.rperp, Vec.dot]
    linarith
  · intro e he
    simp only [hneg] at he ⊢
    have he := bar_facing _ _ _ (by linarith) he
    rw [if_neg (by linarith)] at he
    subst he
    simp only [widthAlong, Vec.sub, Vec.rperp, Vec.dot]
    linarith

example (h h' : Word) : ∃ s, shapesCollide (bar 0 (-1) h) (bar (3 / 2) (-1) h') = some s ∧ s.points ≠ [] ∧
    ∀ p ∈ s.points, |(p.pointB.sub p.pointA).cross s.normal| ≤ 3 * tiny := by
  obtain ⟨c, hg, hr, ho, hw, hw'⟩ := bars_ok (-1) (-1) h h'
  have p1 := bar_proper 0 (-1) h (by norm_num) (by norm_num)
  have p2 := bar_proper (3 / 2) (-1) h' (by norm_num [abs_le]) (by norm_num)
  have s1 := bar_sided 0 (-1) h (by norm_num)
  have s2 := bar_sided (3 / 2) (-1) h' (by norm_num)
  obtain ⟨s, hs, hne⟩ := C48_found _ _ p1 p2 s1 s2 (bar_free _ _ _) (bar_free _ _ _) le_rfl hg (by simp) hr ho
  exact ⟨s, hs, hne, C48_over _ _ p1 p2 s1 s2 (bar_free _ _ _) (bar_free _ _ _) le_rfl hg (by simp) hr hw hw' hs⟩

/-! ### `SetEndpoints` -/

theorem contact_point {a b : Shp ℝ} (ho : a.cls.order ≤ b.cls.order) {j : Info ℝ} (h : collideSorted a b ⟨⟨0, 0⟩, 0, []⟩ = some j)
    {k : Contact ℝ} (hk : k ∈ j.contacts) : ∃ s p, shapesCollide a b = some s ∧ p ∈ s.points ∧ s.normal = j.n ∧ p.pointA = k.r1 ∧
      p.pointB = k.r2 ∧ p.distance = (k.r2.sub k.r1).dot j.n :=
  ⟨_, ⟨k.r1, k.r2, (k.r2.sub k.r1).dot j.n⟩, shapesCollide_sorted ho h, List.mem_map.2 ⟨k, hk, rfl⟩, rfl, rfl, rfl, rfl⟩

/-- The first pair of points, if it is a contact. -/
theorem contactPoints_first (e1 e2 : Edge ℝ) (c : Closest ℝ) (i : Info ℝ) (hnil : i.contacts = []) (hd : c.d ≤ e1.r + e2.r)
    (h : (((c.n.mult (-e2.r)).add (e2.a.lerp e2.b (clamp01 ((e1.a.cross c.n - e2.a.cross c.n) *
        (1 / (e2.b.cross c.n - e2.a.cross c.n + (lit (1 / 10 ^ 15) : ℝ))))))).sub
      ((c.n.mult e1.r).add (e1.a.lerp e1.b (clamp01 ((e2.b.cross c.n - e1.a.cross c.n) *
        (1 / (e1.b.cross c.n - e1.a.cross c.n + (lit (1 / 10 ^ 15) : ℝ)))))))).dot c.n ≤ 0) :
    ∃ j, contactPoints e1 e2 c i = some j ∧ j.n = c.n ∧
      (⟨(c.n.mult e1.r).add (e1.a.lerp e1.b (clamp01 ((e2.b.cross c.n - e1.a.cross c.n) *
          (1 / (e1.b.cross c.n - e1.a.cross c.n + (lit (1 / 10 ^ 15) : ℝ)))))),
        (c.n.mult (-e2.r)).add (e2.a.lerp e2.b (clamp01 ((e1.a.cross c.n - e2.a.cross c.n) *
          (1 / (e2.b.cross c.n - e2.a.cross c.n + (lit (1 / 10 ^ 15) : ℝ)))))), hashPair e1.aHash e2.bHash⟩ : Contact ℝ) ∈ j.contacts := by
  unfold contactPoints
  simp only [if_neg (not_lt.2 hd), if_pos h]
  rw [push_some (by simp [hnil])]
  simp only [Option.bind_eq_bind, Option.bind_some]
  split
  · rw [push_some (by simp [hnil])]
    exact ⟨_, rfl, rfl, by simp [hnil]⟩
  · exact ⟨_, rfl, rfl, by simp [hnil]⟩


/-- **A segment that got its ends from `SetEndpoints`** (its normal has the other sign than `NewSegment` computes): the two points
of a contact do not belong together, here they are 2 apart across the normal (the bars are only 2 long, so opposite ends are
paired). The very same bar made by `NewSegment` gives points over each other. -/
theorem C48_setEndpoints_violated : ∃ (g : Segment ℝ) (a b : Shp ℝ), Proper a.cls ∧ Proper b.cls ∧
    g = Segment.new ⟨-1, 0⟩ ⟨1, 0⟩ 1 ∧
    a.cls = .seg (((g.setEndpoints ⟨-1, 0⟩ ⟨1, 0⟩).cacheData Transform.identity).1) ∧
    b.cls = .seg (((Segment.new ⟨-1, 3 / 2⟩ ⟨1, 3 / 2⟩ 1).cacheData Transform.identity).1) ∧
    (∃ s p, shapesCollide a b = some s ∧ p ∈ s.points ∧ 1 < |(p.pointB.sub p.pointA).cross s.normal|) ∧
    ∀ s, shapesCollide { a with cls := .seg (g.cacheData Transform.identity).1 } b = some s →
      ∀ p ∈ s.points, |(p.pointB.sub p.pointA).cross s.normal| ≤ 3 * tiny := by
  obtain ⟨κ, hκ⟩ : ∃ κ : ℝ, κ = 2 / (2 + 1 / 10 ^ 15) := ⟨_, rfl⟩
  have k0 : 0 < κ := by rw [hκ]; norm_num
  have k1 : κ * κ ≤ 1 := by rw [hκ]; norm_num
  have hl : ∀ y : ℝ, ((⟨1, y⟩ : Vec ℝ).sub ⟨-1, y⟩).normalize = ⟨κ, 0⟩ := by
    intro y
    have he : (⟨1, y⟩ : Vec ℝ).sub ⟨-1, y⟩ = ⟨2, 0⟩ := by ext <;> norm_num [Vec.sub]
    have hl : (⟨2, 0⟩ : Vec ℝ).length = 2 := by
      have hs : Real.sqrt (2 * 2) = 2 := Real.sqrt_mul_self (by norm_num)
      simp only [Vec.length, Vec.dot, sqrt_real]; rw [← hs]; congr 1; norm_num
    rw [he, Vec.normalize, hl]
    ext
    · simp only [Vec.mult, lit_real, hκ]; norm_num
    · norm_num [Vec.mult]
  have id1 : ∀ v : Vec ℝ, (Transform.identity : Transform ℝ).point v = v := by
    intro v; ext <;> simp [Transform.identity, Transform.point]
  have id2 : ∀ v : Vec ℝ, (Transform.identity : Transform ℝ).vect v = v := by
    intro v; ext <;> simp [Transform.identity, Transform.vect]
  have e1 : (((Segment.new ⟨-1, 0⟩ ⟨1, 0⟩ 1).setEndpoints ⟨-1, 0⟩ ⟨1, 0⟩).cacheData Transform.identity).1 = barSeg 0 κ := by
    simp only [Segment.cacheData, Segment.setEndpoints, Segment.new, id1, id2, hl, barSeg, Vec.perp, neg_zero]
  have e2 : ∀ y, ((Segment.new ⟨-1, y⟩ ⟨1, y⟩ 1).cacheData Transform.identity).1 = barSeg y (-κ) := by
    intro y
    simp only [Segment.cacheData, Segment.new, id1, id2, hl, barSeg, Vec.rperp]
  refine ⟨_, bar 0 κ 1#64, bar (3 / 2) (-κ) 2#64, bar_proper _ _ _ (by norm_num) k1, bar_proper _ _ _ (by norm_num [abs_le]) (by linarith),
    rfl, by rw [e1]; rfl, by rw [e2]; rfl, ?_, ?_⟩
  · obtain ⟨a1, a2⟩ := almost_bounds
    have hg := bars_gjk κ (-κ) 1#64 2#64
    rw [bars_closest] at hg
    have E1 : edgeOfSegment (barSeg 0 κ) 1#64 ⟨0, almost⟩ = ⟨⟨-1, 0⟩, hashPair 1#64 0#64, ⟨1, 0⟩, hashPair 1#64 1#64, 1, ⟨0, κ⟩⟩ := by
      unfold edgeOfSegment
      rw [if_pos (by simp only [barSeg, Vec.dot]; nlinarith)]; rfl
    have E2 : edgeOfSegment (barSeg (3 / 2) (-κ)) 2#64 (⟨0, almost⟩ : Vec ℝ).neg =
        ⟨⟨-1, 3 / 2⟩, hashPair 2#64 0#64, ⟨1, 3 / 2⟩, hashPair 2#64 1#64, 1, ⟨0, -κ⟩⟩ := by
      unfold edgeOfSegment
      rw [if_pos (by simp only [barSeg, Vec.dot, Vec.neg]; nlinarith)]; rfl
    have hc : collideSorted (bar 0 κ 1#64) (bar (3 / 2) (-κ) 2#64) ⟨⟨0, 0⟩, 0, []⟩ =
        contactPoints (edgeOfSegment (barSeg 0 κ) 1#64 ⟨0, almost⟩) (edgeOfSegment (barSeg (3 / 2) (-κ)) 2#64 (⟨0, almost⟩ : Vec ℝ).neg)
          ⟨⟨0, 0⟩, ⟨0, 3 / 2⟩, ⟨0, almost⟩, 3 / 2 * almost, 65792⟩ ⟨⟨0, 0⟩, 65792, []⟩ := by
      unfold collideSorted
      simp only [bar] at hg ⊢
      simp only [hg, Option.bind_eq_bind, Option.bind_some, segmentToSegment]
      rw [if_neg (by simp only [barSeg]; linarith), if_pos (by simp only [barSeg, capOk_zero, and_self])]
    obtain ⟨j, hj, hn, hmem⟩ := contactPoints_first (edgeOfSegment (barSeg 0 κ) 1#64 ⟨0, almost⟩)
      (edgeOfSegment (barSeg (3 / 2) (-κ)) 2#64 (⟨0, almost⟩ : Vec ℝ).neg)
      ⟨⟨0, 0⟩, ⟨0, 3 / 2⟩, ⟨0, almost⟩, 3 / 2 * almost, 65792⟩ ⟨⟨0, 0⟩, 65792, []⟩ rfl (by rw [E1, E2]; simp only; linarith) (by
        rw [E1, E2]
        simp only [Vec.dot, Vec.sub, Vec.add, Vec.mult, Vec.lerp]
        nlinarith)
    rw [hj] at hc
    obtain ⟨s, p, hs, hp, q1, q2, q3, -⟩ := contact_point (by exact Nat.le_refl 1) hc hmem
    refine ⟨s, p, hs, hp, ?_⟩
    rw [q1, q2, q3]
    simp only [hn, E1, E2]
    have z1 : clamp01 (((⟨-1, 0⟩ : Vec ℝ).cross ⟨0, almost⟩ - (⟨-1, 3 / 2⟩ : Vec ℝ).cross ⟨0, almost⟩) *
        (1 / ((⟨1, 3 / 2⟩ : Vec ℝ).cross ⟨0, almost⟩ - (⟨-1, 3 / 2⟩ : Vec ℝ).cross ⟨0, almost⟩ + (lit (1 / 10 ^ 15) : ℝ)))) = 0 := by
      have : ((⟨-1, 0⟩ : Vec ℝ).cross ⟨0, almost⟩ - (⟨-1, 3 / 2⟩ : Vec ℝ).cross ⟨0, almost⟩) = 0 := by simp only [Vec.cross]; ring
      rw [this, zero_mul]; exact clamp01_of_le le_rfl
    have z2 : 9 / 10 ≤ clamp01 (((⟨1, 3 / 2⟩ : Vec ℝ).cross ⟨0, almost⟩ - (⟨-1, 0⟩ : Vec ℝ).cross ⟨0, almost⟩) *
        (1 / ((⟨1, 0⟩ : Vec ℝ).cross ⟨0, almost⟩ - (⟨-1, 0⟩ : Vec ℝ).cross ⟨0, almost⟩ + (lit (1 / 10 ^ 15) : ℝ)))) := by
      rw [clamp01_real]
      refine le_max_of_le_right (le_min ?_ (by norm_num))
      have h1 : (⟨1, 3 / 2⟩ : Vec ℝ).cross ⟨0, almost⟩ - (⟨-1, 0⟩ : Vec ℝ).cross ⟨0, almost⟩ = 2 * almost := by simp only [Vec.cross]; ring
      have h2 : (⟨1, 0⟩ : Vec ℝ).cross ⟨0, almost⟩ - (⟨-1, 0⟩ : Vec ℝ).cross ⟨0, almost⟩ + (lit (1 / 10 ^ 15) : ℝ) = 2 * almost + 1 / 10 ^ 15 := by
        rw [lit_real]; simp only [Vec.cross]; push_cast; ring
      rw [h1, h2, mul_one_div, le_div_iff₀ (by positivity)]
      norm_num
      linarith
    rw [z1]
    generalize (clamp01 _ : ℝ) = x at z2 ⊢
    simp only [Vec.cross, Vec.sub, Vec.add, Vec.mult, Vec.lerp]
    rw [lt_abs]
    right
    nlinarith
  · intro s hs
    obtain ⟨c, hg, hr, -, hw, hw'⟩ := bars_ok (-κ) (-κ) 1#64 2#64
    rw [e2] at hs
    exact C48_over (bar 0 (-κ) 1#64) (bar (3 / 2) (-κ) 2#64) (bar_proper _ _ _ (by norm_num) (by linarith))
      (bar_proper _ _ _ (by norm_num [abs_le]) (by linarith)) (bar_sided _ _ _ (by linarith)) (bar_sided _ _ _ (by linarith))
      (bar_free _ _ _) (bar_free _ _ _) le_rfl hg (by simp) hr hw hw' hs

/-! ### Bars end to end -/

/-- Two horizontal bars of radius 1 in one line: from `(0, 0)` to `(-10, 0)` and from `(11, 0)` to `(1, 0)`. -/
noncomputable def leftBar : Shp ℝ :=
  ⟨.seg ⟨⟨0, 0⟩, ⟨-10, 0⟩, ⟨0, 1⟩, ⟨0, 0⟩, ⟨-10, 0⟩, ⟨0, 1⟩, 1, ⟨0, 0⟩, ⟨0, 0⟩⟩, ⟨-11, -1, 1, 1⟩, ⟨1, 0⟩, 1#64⟩
noncomputable def rightBar : Shp ℝ :=
  ⟨.seg ⟨⟨11, 0⟩, ⟨1, 0⟩, ⟨0, 1⟩, ⟨11, 0⟩, ⟨1, 0⟩, ⟨0, 1⟩, 1, ⟨0, 0⟩, ⟨0, 0⟩⟩, ⟨0, -1, 12, 1⟩, ⟨1, 0⟩, 2#64⟩

theorem inLine_gjk : gjk leftBar rightBar 0 =
    some (Mink.closestPoints (F := ℝ) ⟨⟨0, 0⟩, ⟨1, 0⟩, ⟨1, 0⟩, 1⟩ ⟨⟨-10, 0⟩, ⟨1, 0⟩, ⟨11, 0⟩, 257⟩, .axis) := by
  have e1 : (leftBar.bb.center.sub rightBar.bb.center).perp = (⟨0, -11⟩ : Vec ℝ) := by
    ext <;> norm_num [leftBar, rightBar, BB.center, Vec.lerp, Vec.add, Vec.mult, Vec.sub, Vec.perp]
  have start : gjkStart leftBar rightBar 0 = (⟨⟨-10, 0⟩, ⟨1, 0⟩, ⟨11, 0⟩, 257⟩, ⟨⟨-10, 0⟩, ⟨1, 0⟩, ⟨11, 0⟩, 257⟩) := by
    simp only [gjkStart, ne_eq, not_true_eq_false, if_false, e1]
    simp only [supportM, Cls.support, leftBar, rightBar]
    norm_num [Mink.new, Vec.sub, Vec.dot, Vec.neg]
  unfold gjk
  rw [start]
  simp only
  have t1 : (⟨11, 0⟩ : Vec ℝ).closestT ⟨11, 0⟩ = 1 := by
    norm_num [Vec.closestT, Vec.sub, Vec.lengthSq, Vec.dot, Vec.add, clamp]
  have t2 : (⟨11, 0⟩ : Vec ℝ).closestT ⟨1, 0⟩ = 1 := by
    norm_num [Vec.closestT, Vec.sub, Vec.lengthSq, Vec.dot, Vec.add, clamp]
  have t3 : (⟨1, 0⟩ : Vec ℝ).closestT ⟨11, 0⟩ = -1 := by
    norm_num [Vec.closestT, Vec.sub, Vec.lengthSq, Vec.dot, Vec.add, clamp]
  rw [gjk_right (n := ⟨-11, 0⟩) (p := ⟨⟨0, 0⟩, ⟨1, 0⟩, ⟨1, 0⟩, 1⟩), gjk_axis (n := ⟨-1, 0⟩) (p := ⟨⟨0, 0⟩, ⟨1, 0⟩, ⟨1, 0⟩, 1⟩)]
  · norm_num [Vec.pointGreater]
  · simp only [gjkAxis, t3]; norm_num [Vec.lerpT, Vec.add, Vec.mult, Vec.neg]
  · simp only [supportM, Cls.support, leftBar, rightBar]
    norm_num [Mink.new, Vec.sub, Vec.dot, Vec.neg]
  · norm_num [Vec.pointGreater]
  · norm_num [Vec.checkAxis, Vec.dot]
  · norm_num [Vec.pointGreater]
  · simp only [gjkAxis, t1]; norm_num [Vec.lerpT, Vec.add, Vec.mult, Vec.neg]
  · simp only [supportM, Cls.support, leftBar, rightBar]
    norm_num [Mink.new, Vec.sub, Vec.dot, Vec.neg]
  · norm_num [Vec.pointGreater]
  · norm_num [Vec.checkAxis, Vec.dot]
  · simp only [Vec.closestDist, t2, t3]; norm_num [Vec.lerpT, Vec.add, Vec.mult, Vec.lengthSq, Vec.dot]

theorem inLine_closest : Mink.closestPoints (F := ℝ) ⟨⟨0, 0⟩, ⟨1, 0⟩, ⟨1, 0⟩, 1⟩ ⟨⟨-10, 0⟩, ⟨1, 0⟩, ⟨11, 0⟩, 257⟩ =
    ⟨⟨0, 0⟩, ⟨1, 0⟩, ⟨0, -(10 / (10 + 1 / 10 ^ 15))⟩, 0, 65793⟩ := by
  have t3 : (⟨1, 0⟩ : Vec ℝ).closestT ⟨11, 0⟩ = -1 := by
    norm_num [Vec.closestT, Vec.sub, Vec.lengthSq, Vec.dot, Vec.add, clamp]
  have hs : Real.sqrt (10 * 10) = 10 := Real.sqrt_mul_self (by norm_num)
  have hn : ((⟨11, 0⟩ : Vec ℝ).sub ⟨1, 0⟩).rperp.normalize = ⟨0, -(10 / (10 + 1 / 10 ^ 15))⟩ := by
    have hl : (⟨0, -10⟩ : Vec ℝ).length = 10 := by
      simp only [Vec.length, Vec.dot, sqrt_real]; rw [← hs]; congr 1; norm_num
    have he : ((⟨11, 0⟩ : Vec ℝ).sub ⟨1, 0⟩).rperp = ⟨0, -10⟩ := by norm_num [Vec.sub, Vec.rperp]
    rw [he, Vec.normalize, hl]
    ext
    · norm_num [Vec.mult]
    · simp only [Vec.mult, lit_real]; norm_num
  unfold Mink.closestPoints
  simp only [t3, hn]
  have hd : (⟨0, -(10 / (10 + 1 / 10 ^ 15))⟩ : Vec ℝ).dot ((⟨1, 0⟩ : Vec ℝ).lerpT ⟨11, 0⟩ (-1)) = 0 := by
    norm_num [Vec.lerpT, Vec.add, Vec.mult, Vec.dot]
  rw [hd, if_pos (.inl le_rfl)]
  simp only [Closest.mk.injEq]
  refine ⟨?_, ?_, trivial, trivial, ?_⟩
  · ext <;> norm_num [Vec.lerpT, Vec.add, Vec.mult]
  · ext <;> norm_num [Vec.lerpT, Vec.add, Vec.mult]
  · norm_num

/-- **Segments in one line, end to end**: bars of radius 1 whose cores are 1 apart, so that they overlap by 1 along the line. The
reported normal is across the line, and the depth is almost 2: the bars are pushed apart sideways. (GJK reports `d = 0` here,
compare `C33_collinear_violated`.) -/
theorem C48_end_to_end_violated : ∃ a b : Shp ℝ, Proper a.cls ∧ Proper b.cls ∧ Sided a.cls ∧ Sided b.cls ∧ FreeEnds a.cls ∧ FreeEnds b.cls ∧
    (∀ p ∈ a.cls.verts, ∀ q ∈ b.cls.verts, p.y = 0 ∧ q.y = 0 ∧ p.x + 1 ≤ q.x) ∧ a.cls.radius = 1 ∧ b.cls.radius = 1 ∧
    ∃ s p, shapesCollide a b = some s ∧ p ∈ s.points ∧ s.normal.x = 0 ∧ p.distance < -19 / 10 := by
  have e : (11 : ℝ) ≤ 2 ^ 500 := by
    calc (11 : ℝ) ≤ 2 ^ 4 := by norm_num
      _ ≤ 2 ^ 500 := pow_le_pow_right₀ (by norm_num) (by norm_num)
  refine ⟨leftBar, rightBar, ?_, ?_, ?_, ?_, ⟨rfl, rfl⟩, ⟨rfl, rfl⟩, ?_, rfl, rfl, ?_⟩
  · refine ⟨⟨by simp [leftBar, Cls.verts], by simp [leftBar, Cls.verts], ?_⟩, by norm_num [leftBar, Cls.radius], ?_⟩
    · intro v hv
      simp only [leftBar, Cls.verts, List.mem_cons, List.not_mem_nil, or_false] at hv
      rcases hv with rfl | rfl <;> constructor <;> refine le_trans ?_ e <;> norm_num [abs_le]
    · intro g hg
      simp only [leftBar, Cls.seg.injEq] at hg
      subst hg
      refine ⟨?_, by norm_num [Vec.dot]⟩
      intro h; have := congrArg Vec.x h; norm_num at this
  · refine ⟨⟨by simp [rightBar, Cls.verts], by simp [rightBar, Cls.verts], ?_⟩, by norm_num [rightBar, Cls.radius], ?_⟩
    · intro v hv
      simp only [rightBar, Cls.verts, List.mem_cons, List.not_mem_nil, or_false] at hv
      rcases hv with rfl | rfl <;> constructor <;> refine le_trans ?_ e <;> norm_num [abs_le]
    · intro g hg
      simp only [rightBar, Cls.seg.injEq] at hg
      subst hg
      refine ⟨?_, by norm_num [Vec.dot]⟩
      intro h; have := congrArg Vec.x h; norm_num at this
  · exact ⟨1 / 10, by norm_num, by ext <;> norm_num [Vec.sub, Vec.rperp, Vec.mult]⟩
  · exact ⟨1 / 10, by norm_num, by ext <;> norm_num [Vec.sub, Vec.rperp, Vec.mult]⟩
  · intro p hp q hq
    simp only [leftBar, rightBar, Cls.verts, List.mem_cons, List.not_mem_nil, or_false] at hp hq
    rcases hp with rfl | rfl <;> rcases hq with rfl | rfl <;> norm_num
  · have hg := inLine_gjk
    rw [inLine_closest] at hg
    obtain ⟨κ, hκ⟩ : ∃ κ : ℝ, κ = 10 / (10 + 1 / 10 ^ 15) := ⟨_, rfl⟩
    have k0 : 99 / 100 < κ := by rw [hκ]; norm_num
    rw [← hκ] at hg
    obtain ⟨g1, hg1⟩ : ∃ g : Segment ℝ, leftBar.cls = .seg g ∧ g = ⟨⟨0, 0⟩, ⟨-10, 0⟩, ⟨0, 1⟩, ⟨0, 0⟩, ⟨-10, 0⟩, ⟨0, 1⟩, 1, ⟨0, 0⟩, ⟨0, 0⟩⟩ := ⟨_, rfl, rfl⟩
    obtain ⟨g2, hg2⟩ : ∃ g : Segment ℝ, rightBar.cls = .seg g ∧ g = ⟨⟨11, 0⟩, ⟨1, 0⟩, ⟨0, 1⟩, ⟨11, 0⟩, ⟨1, 0⟩, ⟨0, 1⟩, 1, ⟨0, 0⟩, ⟨0, 0⟩⟩ := ⟨_, rfl, rfl⟩
    have hc : collideSorted leftBar rightBar ⟨⟨0, 0⟩, 0, []⟩ =
        contactPoints (edgeOfSegment g1 1#64 ⟨0, -κ⟩) (edgeOfSegment g2 2#64 (⟨0, -κ⟩ : Vec ℝ).neg)
          ⟨⟨0, 0⟩, ⟨1, 0⟩, ⟨0, -κ⟩, 0, 65793⟩ ⟨⟨0, 0⟩, 65793, []⟩ := by
      unfold collideSorted
      simp only [hg1.1, hg2.1, hg, Option.bind_eq_bind, Option.bind_some, segmentToSegment]
      rw [if_neg (by rw [hg1.2, hg2.2]; norm_num), if_pos (by rw [hg1.2, hg2.2]; simp only [capOk_zero, and_self])]
      rfl
    have E1 : ∃ w1 w2 n, edgeOfSegment g1 1#64 ⟨0, -κ⟩ = ⟨⟨-10, 0⟩, w1, ⟨0, 0⟩, w2, 1, n⟩ := by
      unfold edgeOfSegment
      rw [if_neg (by rw [hg1.2]; simp only [Vec.dot]; linarith), hg1.2]; exact ⟨_, _, _, rfl⟩
    have E2 : ∃ w1 w2 n, edgeOfSegment g2 2#64 (⟨0, -κ⟩ : Vec ℝ).neg = ⟨⟨11, 0⟩, w1, ⟨1, 0⟩, w2, 1, n⟩ := by
      unfold edgeOfSegment
      rw [if_pos (by rw [hg2.2]; simp only [Vec.dot, Vec.neg]; linarith), hg2.2]; exact ⟨_, _, _, rfl⟩
    obtain ⟨w1, w2, n1, E1⟩ := E1
    obtain ⟨w3, w4, n2, E2⟩ := E2
    rw [E1, E2] at hc
    have hdist : ∀ x y : ℝ, ((((⟨0, -κ⟩ : Vec ℝ).mult (-1)).add ((⟨11, 0⟩ : Vec ℝ).lerp ⟨1, 0⟩ y)).sub
        (((⟨0, -κ⟩ : Vec ℝ).mult 1).add ((⟨-10, 0⟩ : Vec ℝ).lerp ⟨0, 0⟩ x))).dot ⟨0, -κ⟩ = -(2 * κ * κ) := by
      intro x y; simp only [Vec.dot, Vec.sub, Vec.add, Vec.mult, Vec.lerp]; ring
    have hk : -(2 * κ * κ) < -19 / 10 := by nlinarith
    obtain ⟨j, hj, hn, hmem⟩ := contactPoints_first ⟨⟨-10, 0⟩, w1, ⟨0, 0⟩, w2, 1, n1⟩ ⟨⟨11, 0⟩, w3, ⟨1, 0⟩, w4, 1, n2⟩
      ⟨⟨0, 0⟩, ⟨1, 0⟩, ⟨0, -κ⟩, 0, 65793⟩ ⟨⟨0, 0⟩, 65793, []⟩ rfl (by norm_num) (by simp only; rw [hdist]; linarith)
    rw [hj] at hc
    obtain ⟨s, p, hs, hp, q1, -, -, q4⟩ := contact_point (by exact Nat.le_refl 1) hc hmem
    refine ⟨s, p, hs, hp, by rw [q1, hn], ?_⟩
    rw [q4, hn]
    simp only
    rw [hdist]; exact hk

end CP
