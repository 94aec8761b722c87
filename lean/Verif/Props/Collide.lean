import Verif.Props.Gjk
import Verif.Props.Shapes

/-! # C32: contacts of two shapes -/

namespace CP
open GoFloat Coll

section Count
variable {F : Type} [GoFloat F]

theorem push_some {i : Info F} (h : i.contacts.length < 2) (p q : Vec F) (w : Word) :
    i.push p q w = some { i with contacts := i.contacts ++ [⟨p, q, w⟩] } := by
  simp only [Info.push, if_pos h]

/-- The possible contacts of `ContactPoints`. -/
theorem contactPoints_some (e1 e2 : Edge F) (c : Closest F) (i : Info F) (h : i.contacts = []) :
    ∃ j, contactPoints e1 e2 c i = some j ∧ j.contacts.length ≤ 2 ∧
      (j.contacts ≠ [] → j.n = c.n ∧ ¬ e1.r + e2.r < c.d) ∧
      ∀ k ∈ j.contacts, (∃ t u, k.r1 = (c.n.mult e1.r).add (e1.a.lerp e1.b (clamp01 t)) ∧
        k.r2 = (c.n.mult (-e2.r)).add (e2.a.lerp e2.b (clamp01 u))) ∧ (k.r2.sub k.r1).dot c.n ≤ 0 := by
  unfold contactPoints
  simp only
  split
  · exact ⟨i, rfl, by rw [h]; simp, fun hh => absurd h hh, by rw [h]; simp⟩
  · rename_i hd
    split
    · rename_i h1
      rw [push_some (by simp [h])]
      simp only [Option.bind_eq_bind, Option.bind_some]
      split
      · rename_i h2
        rw [push_some (by simp [h])]
        refine ⟨_, rfl, by simp [h], fun _ => ⟨rfl, hd⟩, ?_⟩
        intro k hk
        simp only [h, List.nil_append, List.mem_append, List.mem_singleton] at hk
        rcases hk with rfl | rfl
        · exact ⟨⟨_, _, rfl, rfl⟩, h1⟩
        · exact ⟨⟨_, _, rfl, rfl⟩, h2⟩
      · refine ⟨_, rfl, by simp [h], fun _ => ⟨rfl, hd⟩, ?_⟩
        intro k hk
        simp only [h, List.nil_append, List.mem_singleton] at hk
        subst hk
        exact ⟨⟨_, _, rfl, rfl⟩, h1⟩
    · simp only [Option.bind_eq_bind, Option.bind_some]
      split
      · rename_i h2
        rw [push_some (by simp [h])]
        refine ⟨_, rfl, by simp [h], fun _ => ⟨rfl, hd⟩, ?_⟩
        intro k hk
        simp only [h, List.nil_append, List.mem_singleton] at hk
        subst hk
        exact ⟨⟨_, _, rfl, rfl⟩, h2⟩
      · exact ⟨_, rfl, by simp [h], fun _ => ⟨rfl, hd⟩, by simp [h]⟩

theorem circleToCircle_some (c1 c2 : Circle F) (i : Info F) (h : i.contacts = []) :
    ∃ j, circleToCircle c1 c2 i = some j ∧ j.contacts.length ≤ 2 := by
  simp only [circleToCircle]
  split
  · rw [push_some (by simp [h])]; exact ⟨_, rfl, by simp [h]⟩
  · exact ⟨_, rfl, by simp [h]⟩

theorem circleToSegment_some (c : Circle F) (g : Segment F) (rot : Vec F) (i : Info F) (h : i.contacts = []) :
    ∃ j, circleToSegment c g rot i = some j ∧ j.contacts.length ≤ 2 := by
  have key : ∀ {P : Prop} {_ : Decidable P} (i : Info F), i.contacts = [] → ∀ p q,
      ∃ j, (if P then i.push p q 0#64 else some i) = some j ∧ j.contacts.length ≤ 2 := by
    intro P _ i h p q
    split
    · rw [push_some (by simp [h])]; exact ⟨_, rfl, by simp [h]⟩
    · exact ⟨_, rfl, by simp [h]⟩
  simp only [circleToSegment]
  by_cases hc : (((g.ta.add ((g.tb.sub g.ta).mult (clamp01 ((g.tb.sub g.ta).dot (c.tc.sub g.ta) /
      (g.tb.sub g.ta).lengthSq)))).sub c.tc).lengthSq < (c.r + g.r) * (c.r + g.r))
  · rw [if_pos hc]; refine key _ ?_ _ _; exact h
  · rw [if_neg hc]; exact ⟨_, rfl, by simp [h]⟩

theorem circleToPoly_some (c : Circle F) (g : Poly F) (pts : Closest F) (i : Info F) (h : i.contacts = []) :
    ∃ j, circleToPoly c g pts i = some j ∧ j.contacts.length ≤ 2 := by
  simp only [circleToPoly]
  split
  · rw [push_some (by simp [h])]; exact ⟨_, rfl, by simp [h]⟩
  · exact ⟨_, rfl, by simp [h]⟩

theorem segmentToSegment_some (s1 s2 : Segment F) (r1 r2 : Vec F) (h1 h2 : Word) (pts : Closest F) (i : Info F)
    (h : i.contacts = []) : ∃ j, segmentToSegment s1 s2 r1 r2 h1 h2 pts i = some j ∧ j.contacts.length ≤ 2 := by
  simp only [segmentToSegment]
  split
  · exact ⟨_, rfl, by simp [h]⟩
  · split
    · obtain ⟨j, e, l, _⟩ := contactPoints_some (edgeOfSegment s1 h1 pts.n) (edgeOfSegment s2 h2 pts.n.neg) pts i h
      exact ⟨j, e, l⟩
    · exact ⟨_, rfl, by simp [h]⟩

theorem segmentToPoly_some (s1 : Segment F) (s2 : Poly F) (r1 : Vec F) (h1 h2 : Word) (pts : Closest F) (i : Info F)
    (h : i.contacts = []) : ∃ j, segmentToPoly s1 s2 r1 h1 h2 pts i = some j ∧ j.contacts.length ≤ 2 := by
  simp only [segmentToPoly]
  split
  · obtain ⟨j, e, l, _⟩ := contactPoints_some (edgeOfSegment s1 h1 pts.n) (edgeOfPoly s2 h2 pts.n.neg) pts i h
    exact ⟨j, e, l⟩
  · exact ⟨_, rfl, by simp [h]⟩

theorem polyToPoly_some (s1 s2 : Poly F) (h1 h2 : Word) (pts : Closest F) (i : Info F)
    (h : i.contacts = []) : ∃ j, polyToPoly s1 s2 h1 h2 pts i = some j ∧ j.contacts.length ≤ 2 := by
  simp only [polyToPoly]
  split
  · obtain ⟨j, e, l, _⟩ := contactPoints_some (edgeOfPoly s1 h1 pts.n) (edgeOfPoly s2 h2 pts.n.neg) pts i h
    exact ⟨j, e, l⟩
  · exact ⟨_, rfl, by simp [h]⟩

theorem collideSorted_some [FloatSigns F] (a b : Shp F) (ho : a.cls.order ≤ b.cls.order) (ha : a.cls.nonempty = true)
    (hb : b.cls.nonempty = true) (i : Info F) (h : i.contacts = []) :
    ∃ j, collideSorted a b i = some j ∧ j.contacts.length ≤ 2 := by
  obtain ⟨⟨pts, st⟩, hg⟩ := C33_terminates a b i.id
  have ha' := ha
  have hb' := hb
  unfold collideSorted
  cases ea : a.cls with
  | circle c1 =>
    cases eb : b.cls with
    | circle c2 => exact circleToCircle_some c1 c2 i h
    | seg g => exact circleToSegment_some c1 g b.rot i h
    | poly g =>
      rw [eb] at hb'
      simp only [hb', not_true_eq_false, if_false, hg, Option.bind_eq_bind, Option.bind_some]
      exact circleToPoly_some c1 g pts _ h
  | seg g =>
    cases eb : b.cls with
    | circle c2 => rw [ea, eb] at ho; simp [Cls.order] at ho
    | seg g2 =>
      simp only [hg, Option.bind_eq_bind, Option.bind_some]
      exact segmentToSegment_some g g2 a.rot b.rot a.hashid b.hashid pts _ h
    | poly g2 =>
      rw [eb] at hb'
      simp only [hb', not_true_eq_false, if_false, hg, Option.bind_eq_bind, Option.bind_some]
      exact segmentToPoly_some g g2 a.rot a.hashid b.hashid pts _ h
  | poly g =>
    cases eb : b.cls with
    | circle c2 => rw [ea, eb] at ho; simp [Cls.order] at ho
    | seg g2 => rw [ea, eb] at ho; simp [Cls.order] at ho
    | poly g2 =>
      rw [eb] at hb'
      rw [ea] at ha'
      simp only [ha', hb', and_self, not_true_eq_false, if_false, hg, Option.bind_eq_bind, Option.bind_some]
      exact polyToPoly_some g g2 a.hashid b.hashid pts _ h

/-- **No pair of shapes yields more than two contacts, and none panics** (the array of contacts has two elements), whatever
the arithmetic does. A polygon must have a vertex. -/
theorem C32_count [FloatSigns F] (a b : Shp F) (ha : a.cls.nonempty = true) (hb : b.cls.nonempty = true) :
    ∃ s, shapesCollide a b = some s ∧ s.points.length ≤ 2 := by
  unfold shapesCollide collide
  simp only
  split
  · rename_i ho
    obtain ⟨j, e, l⟩ := collideSorted_some b a ho.le hb ha ⟨⟨0, 0⟩, 0, []⟩ rfl
    rw [e]
    exact ⟨_, rfl, by simpa using l⟩
  · rename_i ho
    obtain ⟨j, e, l⟩ := collideSorted_some a b (not_lt.1 ho) ha hb ⟨⟨0, 0⟩, 0, []⟩ rfl
    rw [e]
    exact ⟨_, rfl, by simpa using l⟩

end Count

/-! ### Two circles -/

/-- **Two circles**: a contact exactly if the distance of the centres is less than the sum of the radii, and then one, with
unit normal from the first centre to the second, the points on the two circles in this direction, and the (negative) distance
of the circles. -/
theorem C32_circles (a b : Shp ℝ) (c1 c2 : Circle ℝ) (ha : a.cls = .circle c1) (hb : b.cls = .circle c2) (h1 : 0 ≤ c1.r)
    (h2 : 0 ≤ c2.r) : ∃ s, shapesCollide a b = some s ∧
      (s.points ≠ [] ↔ c1.tc.distance c2.tc < c1.r + c2.r) ∧
      ∀ p ∈ s.points, s.points = [p] ∧ s.normal.length = 1 ∧
        p.pointA = c1.tc.add (s.normal.mult c1.r) ∧ p.pointB = c2.tc.sub (s.normal.mult c2.r) ∧
        p.distance = c1.tc.distance c2.tc - (c1.r + c2.r) ∧
        c2.tc = c1.tc.add (s.normal.mult (c1.tc.distance c2.tc)) := by
  have hd : c1.tc.distance c2.tc = Real.sqrt (c2.tc.sub c1.tc).lengthSq := by rw [distance_length]; rfl
  have hsq : c1.tc.distance c2.tc * c1.tc.distance c2.tc = (c2.tc.sub c1.tc).lengthSq := by
    rw [distance_length, length_sq]; rfl
  have h0 := Vec.distance_nonneg c1.tc c2.tc
  unfold shapesCollide collide collideSorted
  simp only [ha, hb, lt_irrefl, if_false, circleToCircle, Option.map_map]
  by_cases hc : c1.tc.distance c2.tc < c1.r + c2.r
  · have hlt : (c2.tc.sub c1.tc).lengthSq < (c1.r + c2.r) * (c1.r + c2.r) := by
      rw [← hsq]; exact mul_self_lt_mul_self h0 hc
    rw [if_pos hlt, push_some (by simp)]
    refine ⟨_, rfl, by simp [hc], ?_⟩
    intro p hp
    simp only [Function.comp_apply, Bool.false_eq_true, if_false, List.nil_append, List.map_cons, List.map_nil,
      List.mem_singleton] at hp ⊢
    subst hp
    simp only [true_and]
    simp only [sqrt_real, ← hd]
    by_cases hz : c1.tc.distance c2.tc = 0
    · rw [if_neg (by simpa using hz)]
      have he : c1.tc = c2.tc := Vec.distance_eq_zero.1 hz
      refine ⟨by simp [Vec.length, Vec.dot], ?_, ?_, ?_⟩
      · ext <;> simp [Vec.add, Vec.mult, Vec.sub] <;> ring
      · rw [he, Vec.distance_self]; simp only [Vec.dot, Vec.add, Vec.mult, Vec.sub]; ring
      · rw [hz, he]; ext <;> simp [Vec.add, Vec.mult]
    · rw [if_pos (by simpa using hz)]
      have hv : c1.tc.distance c2.tc * c1.tc.distance c2.tc =
          (c2.tc.x - c1.tc.x) * (c2.tc.x - c1.tc.x) + (c2.tc.y - c1.tc.y) * (c2.tc.y - c1.tc.y) := by
        rw [hsq]; rfl
      obtain ⟨d, hdd⟩ : ∃ d, d = c1.tc.distance c2.tc := ⟨_, rfl⟩
      rw [← hdd] at hz hv h0 ⊢
      have hpos : 0 < d := lt_of_le_of_ne h0 (Ne.symm hz)
      have hone : (((c2.tc.sub c1.tc).mult (1 / d)).dot ((c2.tc.sub c1.tc).mult (1 / d))) = 1 := by
        simp only [Vec.dot, Vec.mult, Vec.sub]; field_simp; linarith
      have hdot : (c2.tc.sub c1.tc).dot ((c2.tc.sub c1.tc).mult (1 / d)) = d := by
        simp only [Vec.dot, Vec.mult, Vec.sub]; field_simp; linarith
      refine ⟨by rw [Vec.length, hone]; simp, ?_, ?_, ?_⟩
      · ext <;> simp [Vec.add, Vec.mult, Vec.sub] <;> ring
      · have e : ∀ n : Vec ℝ, ((c2.tc.add (n.mult (-c2.r))).sub (c1.tc.add (n.mult c1.r))).dot n =
            (c2.tc.sub c1.tc).dot n - (c1.r + c2.r) * n.dot n := by
          intro n; simp only [Vec.dot, Vec.mult, Vec.sub, Vec.add]; ring
        rw [e, hone, hdot]; ring
      · ext <;> simp only [Vec.add, Vec.mult, Vec.sub] <;> field_simp <;> ring
  · have hlt : ¬ (c2.tc.sub c1.tc).lengthSq < (c1.r + c2.r) * (c1.r + c2.r) := by
      rw [← hsq]; push Not at hc ⊢; exact mul_self_le_mul_self (by linarith) hc
    rw [if_neg hlt]
    exact ⟨_, rfl, by simpa using hc, by simp⟩

/-- Two overlapping circles. -/
example : ∃ a b : Shp ℝ, ∃ c1 c2, a.cls = .circle c1 ∧ b.cls = .circle c2 ∧ 0 ≤ c1.r ∧ 0 ≤ c2.r ∧
    c1.tc.distance c2.tc < c1.r + c2.r ∧ c1.tc ≠ c2.tc :=
  ⟨ball 0, ball 1, _, _, rfl, rfl, by norm_num, by norm_num, by
    simp only [Vec.distance, Vec.sub, Vec.length, Vec.dot]; norm_num, by simp⟩

/-! ### A circle and a segment -/

/-- The nearest point of the code is the nearest point of the segment. -/
theorem nearest_on_segment (g : Segment ℝ) (p : Vec ℝ) (hab : g.ta ≠ g.tb) :
    OnSegment g.ta g.tb (g.ta.add ((g.tb.sub g.ta).mult
      (clamp01 ((g.tb.sub g.ta).dot (p.sub g.ta) / (g.tb.sub g.ta).lengthSq)))) ∧
    ∀ q, OnSegment g.ta g.tb q → p.distance (g.ta.add ((g.tb.sub g.ta).mult
      (clamp01 ((g.tb.sub g.ta).dot (p.sub g.ta) / (g.tb.sub g.ta).lengthSq)))) ≤ p.distance q := by
  obtain ⟨h1, h2⟩ := C30_closest p g.tb g.ta hab.symm
  have e : p.closestPointOnSegment g.tb g.ta = g.ta.add ((g.tb.sub g.ta).mult
      (clamp01 ((g.tb.sub g.ta).dot (p.sub g.ta) / (g.tb.sub g.ta).lengthSq))) := rfl
  rw [e] at h1 h2
  have sw : ∀ {u v q : Vec ℝ}, OnSegment u v q → OnSegment v u q := by
    rintro u v q ⟨s, h0, h1, rfl⟩
    exact ⟨1 - s, by linarith, by linarith, by ext <;> simp only <;> ring⟩
  exact ⟨sw h1, fun q hq => h2 q (sw hq)⟩

/-- **A circle and a segment** (without neighbours: both tangents zero, of different ends): a contact exactly if some point of
the segment is closer to the centre than the sum of the radii; its points are on the surfaces, on the line from the centre to
the nearest point `q` of the segment, and its distance is that of the surfaces. -/
theorem C32_circle_segment (a b : Shp ℝ) (c : Circle ℝ) (g : Segment ℝ) (ha : a.cls = .circle c) (hb : b.cls = .seg g)
    (h1 : 0 ≤ c.r) (h2 : 0 ≤ g.r) (hab : g.ta ≠ g.tb) (hta : g.aTangent = ⟨0, 0⟩) (htb : g.bTangent = ⟨0, 0⟩)
    (hn : g.tn.length = 1) :
    ∃ s q, shapesCollide a b = some s ∧ OnSegment g.ta g.tb q ∧
      (∀ x, OnSegment g.ta g.tb x → c.tc.distance q ≤ c.tc.distance x) ∧
      (s.points ≠ [] ↔ c.tc.distance q < c.r + g.r) ∧
      ∀ p ∈ s.points, s.points = [p] ∧ s.normal.length = 1 ∧
        p.pointA = c.tc.add (s.normal.mult c.r) ∧ p.pointB = q.sub (s.normal.mult g.r) ∧
        p.distance = c.tc.distance q - (c.r + g.r) ∧ q = c.tc.add (s.normal.mult (c.tc.distance q)) := by
  obtain ⟨hq1, hq2⟩ := nearest_on_segment g c.tc hab
  obtain ⟨t, ht⟩ : ∃ t, t = clamp01 ((g.tb.sub g.ta).dot (c.tc.sub g.ta) / (g.tb.sub g.ta).lengthSq) := ⟨_, rfl⟩
  rw [← ht] at hq1 hq2
  obtain ⟨q, hq⟩ : ∃ q, q = g.ta.add ((g.tb.sub g.ta).mult t) := ⟨_, rfl⟩
  rw [← hq] at hq1 hq2
  have hd : c.tc.distance q = Real.sqrt (q.sub c.tc).lengthSq := by rw [distance_length]; rfl
  have hsq : c.tc.distance q * c.tc.distance q = (q.sub c.tc).lengthSq := by
    rw [distance_length, length_sq]; rfl
  have h0 := Vec.distance_nonneg c.tc q
  have htan : ∀ n : Vec ℝ, 0 ≤ n.dot (g.aTangent.rotate b.rot) ∧ 0 ≤ n.dot (g.bTangent.rotate b.rot) := by
    intro n; rw [hta, htb]; simp [Vec.dot, Vec.rotate]
  have hcond : ∀ n : Vec ℝ, (t ≠ 0 ∨ 0 ≤ n.dot (g.aTangent.rotate b.rot)) ∧ (t ≠ 1 ∨ 0 ≤ n.dot (g.bTangent.rotate b.rot)) :=
    fun n => ⟨Or.inr (htan n).1, Or.inr (htan n).2⟩
  have heq : shapesCollide a b = (circleToSegment c g b.rot ⟨⟨0, 0⟩, 0, []⟩).map fun info =>
      { normal := info.n
        points := info.contacts.map fun c => { pointA := c.r1, pointB := c.r2, distance := (c.r2.sub c.r1).dot info.n } } := by
    unfold shapesCollide collide collideSorted
    simp only [ha, hb, Cls.order]
    norm_num [Option.map_map]
    rfl
  rw [heq]
  simp only [circleToSegment, ← ht, ← hq, sqrt_real, ← hd]
  rw [if_pos (hcond _)]
  by_cases hc : c.tc.distance q < c.r + g.r
  · have hlt : (q.sub c.tc).lengthSq < (c.r + g.r) * (c.r + g.r) := by
      rw [← hsq]; exact mul_self_lt_mul_self h0 hc
    rw [if_pos hlt, push_some (by simp)]
    refine ⟨_, q, rfl, hq1, hq2, by simp [hc], ?_⟩
    intro p hp
    simp only [List.nil_append, List.map_cons, List.map_nil, List.mem_singleton] at hp ⊢
    subst hp
    simp only [true_and]
    by_cases hz : c.tc.distance q = 0
    · rw [if_neg (by simpa using hz)]
      have he : c.tc = q := Vec.distance_eq_zero.1 hz
      have hnn : g.tn.dot g.tn = 1 := by rw [← length_sq, hn]; norm_num
      refine ⟨hn, ?_, ?_, ?_⟩
      · ext <;> simp [Vec.add, Vec.mult, Vec.sub] <;> ring
      · rw [he, Vec.distance_self]
        have : ((q.add (g.tn.mult (-g.r))).sub (q.add (g.tn.mult c.r))).dot g.tn = -(c.r + g.r) * g.tn.dot g.tn := by
          simp only [Vec.dot, Vec.add, Vec.mult, Vec.sub]; ring
        rw [this, hnn]; ring
      · rw [hz, he]; ext <;> simp [Vec.add, Vec.mult]
    · rw [if_pos (by simpa using hz)]
      have hv : c.tc.distance q * c.tc.distance q = (q.x - c.tc.x) * (q.x - c.tc.x) + (q.y - c.tc.y) * (q.y - c.tc.y) := by
        rw [hsq]; rfl
      obtain ⟨d, hdd⟩ : ∃ d, d = c.tc.distance q := ⟨_, rfl⟩
      rw [← hdd] at hz hv h0 ⊢
      have hpos : 0 < d := lt_of_le_of_ne h0 (Ne.symm hz)
      have hone : (((q.sub c.tc).mult (1 / d)).dot ((q.sub c.tc).mult (1 / d))) = 1 := by
        simp only [Vec.dot, Vec.mult, Vec.sub]; field_simp; linarith
      have hdot : (q.sub c.tc).dot ((q.sub c.tc).mult (1 / d)) = d := by
        simp only [Vec.dot, Vec.mult, Vec.sub]; field_simp; linarith
      refine ⟨by rw [Vec.length, hone]; simp, ?_, ?_, ?_⟩
      · ext <;> simp [Vec.add, Vec.mult, Vec.sub] <;> ring
      · have e : ∀ n : Vec ℝ, ((q.add (n.mult (-g.r))).sub (c.tc.add (n.mult c.r))).dot n =
            (q.sub c.tc).dot n - (c.r + g.r) * n.dot n := by
          intro n; simp only [Vec.dot, Vec.mult, Vec.sub, Vec.add]; ring
        rw [e, hone, hdot]; ring
      · ext <;> simp only [Vec.add, Vec.mult, Vec.sub] <;> field_simp <;> ring
  · have hlt : ¬ (q.sub c.tc).lengthSq < (c.r + g.r) * (c.r + g.r) := by
      rw [← hsq]; push Not at hc ⊢; exact mul_self_le_mul_self (by linarith) hc
    rw [if_neg hlt]
    exact ⟨_, q, rfl, hq1, hq2, by simpa using hc, by simp⟩

/-! ### The order of the arguments -/

/-- The answer for the pair in the other order, as it should be, and with the sign of the distance changed. -/
noncomputable def ContactSet.mirror (s : ContactSet ℝ) : ContactSet ℝ :=
  { normal := s.normal.neg, points := s.points.map fun p => ⟨p.pointB, p.pointA, p.distance⟩ }
noncomputable def ContactSet.mirrorNeg (s : ContactSet ℝ) : ContactSet ℝ :=
  { normal := s.normal.neg, points := s.points.map fun p => ⟨p.pointB, p.pointA, -p.distance⟩ }

/-- **Shapes of different classes**: the answer for `(b, a)` has the opposite normal and the points swapped, **but the
distance of every contact with the wrong sign**. -/
theorem C32_swapped_distance (a b : Shp ℝ) (h : a.cls.order ≠ b.cls.order) :
    shapesCollide b a = (shapesCollide a b).map ContactSet.mirrorNeg := by
  unfold shapesCollide collide
  simp only
  have hdot : ∀ u v : Vec ℝ, u.dot v.neg = -(u.dot v) := by intro u v; simp only [Vec.dot, Vec.neg]; ring
  have hneg : ∀ v : Vec ℝ, v.neg.neg = v := by intro v; ext <;> simp [Vec.neg]
  rcases lt_or_gt_of_ne h with h | h
  · rw [if_pos h, if_neg (by omega)]
    cases collideSorted a b ⟨⟨0, 0⟩, 0, []⟩ with
    | none => rfl
    | some i => simp [ContactSet.mirrorNeg, hdot]
  · rw [if_neg (by omega), if_pos h]
    cases collideSorted b a ⟨⟨0, 0⟩, 0, []⟩ with
    | none => rfl
    | some i => simp [ContactSet.mirrorNeg, hdot, hneg]

theorem collide_circles (a b : Shp ℝ) (c1 c2 : Circle ℝ) (ha : a.cls = .circle c1) (hb : b.cls = .circle c2) :
    shapesCollide a b = (circleToCircle c1 c2 ⟨⟨0, 0⟩, 0, []⟩).map fun info =>
      { normal := info.n
        points := info.contacts.map fun c => { pointA := c.r1, pointB := c.r2, distance := (c.r2.sub c.r1).dot info.n } } := by
  unfold shapesCollide collide collideSorted
  simp only [ha, hb, Cls.order]
  norm_num [Option.map_map]
  rfl

/-- **Two circles** with different centres: the two orders mirror each other. -/
theorem C32_mirror_circles (a b : Shp ℝ) (c1 c2 : Circle ℝ) (ha : a.cls = .circle c1) (hb : b.cls = .circle c2)
    (hne : c1.tc ≠ c2.tc) : shapesCollide b a = (shapesCollide a b).map ContactSet.mirror := by
  have e1 : c1.tc.sub c2.tc = (c2.tc.sub c1.tc).neg := by ext <;> simp [Vec.sub, Vec.neg]
  have e2 : (c1.tc.sub c2.tc).lengthSq = (c2.tc.sub c1.tc).lengthSq := by
    rw [e1]; simp [Vec.lengthSq, Vec.dot, Vec.neg]
  rw [collide_circles b a c2 c1 hb ha, collide_circles a b c1 c2 ha hb]
  simp only [circleToCircle, e2, add_comm c2.r c1.r]
  by_cases hc : (c2.tc.sub c1.tc).lengthSq < (c1.r + c2.r) * (c1.r + c2.r)
  · rw [if_pos hc, if_pos hc, push_some (by simp), push_some (by simp)]
    have hz : Real.sqrt (c2.tc.sub c1.tc).lengthSq ≠ 0 := by
      intro hz
      have : c1.tc.distance c2.tc = 0 := by rw [distance_length]; exact hz
      exact hne (Vec.distance_eq_zero.1 this)
    simp only [sqrt_real, ne_eq, hz, not_false_eq_true, if_true, e1, ContactSet.mirror, Option.map_some,
      List.nil_append, List.map_cons, List.map_nil, Option.some.injEq]
    generalize c2.tc.sub c1.tc = v
    have hm : v.neg.mult (1 / Real.sqrt v.lengthSq) = (v.mult (1 / Real.sqrt v.lengthSq)).neg := by
      ext <;> simp [Vec.mult, Vec.neg]
    rw [hm]
    generalize v.mult (1 / Real.sqrt v.lengthSq) = n
    have p1 : c2.tc.add (n.neg.mult c2.r) = c2.tc.add (n.mult (-c2.r)) := by ext <;> simp [Vec.add, Vec.mult, Vec.neg]
    have p2 : c1.tc.add (n.neg.mult (-c1.r)) = c1.tc.add (n.mult c1.r) := by ext <;> simp [Vec.add, Vec.mult, Vec.neg]
    rw [p1, p2]
    have p3 : ∀ u w : Vec ℝ, (u.sub w).dot n.neg = (w.sub u).dot n := by
      intro u w; simp only [Vec.dot, Vec.neg, Vec.sub]; ring
    rw [p3]
  · rw [if_neg hc, if_neg hc]
    simp [ContactSet.mirror, Vec.neg]

/-- Circles with the same centre: the normal is `(1, 0)` in both orders. -/
theorem C32_mirror_concentric_violated (a b : Shp ℝ) (c1 c2 : Circle ℝ) (ha : a.cls = .circle c1) (hb : b.cls = .circle c2)
    (he : c1.tc = c2.tc) (hr : 0 < c1.r + c2.r) :
    ∃ s t, shapesCollide a b = some s ∧ shapesCollide b a = some t ∧ s.points ≠ [] ∧ s.normal = ⟨1, 0⟩ ∧ t.normal = ⟨1, 0⟩ := by
  have e1 : c2.tc.sub c2.tc = ⟨0, 0⟩ := by ext <;> simp [Vec.sub]
  have e2 : (⟨0, 0⟩ : Vec ℝ).lengthSq = 0 := by simp [Vec.lengthSq, Vec.dot]
  have hp := mul_pos hr hr
  rw [collide_circles b a c2 c1 hb ha, collide_circles a b c1 c2 ha hb]
  simp only [circleToCircle, add_comm c2.r c1.r, he, e1, e2, sqrt_real, Real.sqrt_zero, ne_eq, not_true_eq_false, if_false]
  rw [if_pos hp, if_pos hp, push_some (by simp), push_some (by simp)]
  refine ⟨_, _, rfl, rfl, ?_, ?_, ?_⟩ <;> simp

/-! ### Contacts lie in the shapes -/

theorem epa_closest {F : Type} [GoFloat F] (s1 s2 : Cls F) : ∀ (left : Nat) (hull : List (Mink F)) (c : Closest F) (st : Stop),
    hull ≠ [] → epaRecurse s1 s2 left hull = some (c, st) → ∃ v0 v1, c = Mink.closestPoints v0 v1 := by
  intro left
  induction left with
  | zero =>
    intro hull c st hne h
    obtain ⟨v0, v1, mini, _, _, e⟩ := epaRecurse_step s1 s2 0 hull hne
    rw [e] at h
    split at h <;> simp only [Option.some.injEq, Prod.mk.injEq] at h <;> exact ⟨v0, v1, h.1.symm⟩
  | succ left ih =>
    intro hull c st hne h
    obtain ⟨v0, v1, mini, _, _, e⟩ := epaRecurse_step s1 s2 (left + 1) hull hne
    rw [e] at h
    split at h
    · exact ih _ c st (by simp) h
    · simp only [Option.some.injEq, Prod.mk.injEq] at h; exact ⟨v0, v1, h.1.symm⟩

theorem gjkRecurse_closest {F : Type} [GoFloat F] (s1 s2 : Cls F) : ∀ (fuel left : Nat) (v0 v1 : Mink F) (c : Closest F)
    (st : Stop), gjkRecurse s1 s2 fuel left v0 v1 = some (c, st) → ∃ v0 v1, c = Mink.closestPoints v0 v1 := by
  intro fuel
  induction fuel with
  | zero => intro left v0 v1 c st h; cases h
  | succ fuel ih =>
    intro left v0 v1 c st h
    rw [gjkRecurse.eq_def] at h
    cases left with
    | zero => simp only [Option.some.injEq, Prod.mk.injEq] at h; exact ⟨v0, v1, h.1.symm⟩
    | succ left =>
      simp only at h
      split at h
      · exact ih _ _ _ c st h
      · split at h
        · exact epa_closest s1 s2 _ _ c st (by simp) h
        · split at h
          · simp only [Option.some.injEq, Prod.mk.injEq] at h; exact ⟨v0, v1, h.1.symm⟩
          · split at h
            · exact ih _ _ _ c st h
            · exact ih _ _ _ c st h

theorem gjk_normal {a b : Shp ℝ} {id : Nat} {c : Closest ℝ} {st : Stop} (h : gjk a b id = some (c, st)) : c.n.dot c.n ≤ 1 := by
  obtain ⟨v0, v1, rfl⟩ := gjkRecurse_closest _ _ _ _ _ _ _ _ h
  obtain ⟨-, -, hc⟩ := closestPoints_cases v0 v1
  rcases hc with ⟨_, hn, _⟩ | ⟨_, _, _, hn⟩
  · rw [hn]; exact edgeNormal_le_one _
  · rw [hn]
    generalize v0.ab.lerpT v1.ab (v0.ab.closestT v1.ab) = v
    have e : (v.mult (scale v)).dot (v.mult (scale v)) = v.rperp.normalize.dot v.rperp.normalize := by
      rw [normalize_eq]; simp only [Vec.dot, Vec.mult, Vec.rperp]; ring
    rw [e]; exact edgeNormal_le_one _

theorem thick_shift {S : Pts} {p n : Vec ℝ} {r k : ℝ} (hp : S p) (hn : n.dot n ≤ 1) (hk : |k| ≤ r) : Thick S r (p.add (n.mult k)) := by
  refine ⟨p, hp, ?_⟩
  have hr : 0 ≤ r := (abs_nonneg _).trans hk
  rw [Vec.distance_le_iff hr]
  have e : (p.add (n.mult k)).x - p.x = n.x * k := by simp [Vec.add, Vec.mult]
  have e' : (p.add (n.mult k)).y - p.y = n.y * k := by simp [Vec.add, Vec.mult]
  rw [e, e']
  have h1 : (n.x * k) ^ 2 + (n.y * k) ^ 2 = n.dot n * k ^ 2 := by simp only [Vec.dot]; ring
  have h2 : k ^ 2 ≤ r ^ 2 := by rw [← sq_abs k]; exact pow_le_pow_left₀ (abs_nonneg _) hk 2
  have h3 : 0 ≤ k ^ 2 := sq_nonneg k
  rw [h1]; nlinarith

theorem lerp_segment (u v : Vec ℝ) (t : ℝ) : OnSegment u v (u.lerp v (clamp01 t)) := by
  have h : 0 ≤ clamp01 t ∧ clamp01 t ≤ 1 := by
    simp only [clamp01]
    exact ⟨le_max_left _ _, max_le (by norm_num) (min_le_right _ _)⟩
  refine ⟨clamp01 t, h.1, h.2, ?_⟩
  ext <;> simp only [Vec.lerp, Vec.add, Vec.mult] <;> ring

theorem unit_le (v : Vec ℝ) {w : Vec ℝ} (hw : w.dot w ≤ 1) :
    ((if Real.sqrt v.lengthSq ≠ 0 then v.mult (1 / Real.sqrt v.lengthSq) else w : Vec ℝ)).dot
      (if Real.sqrt v.lengthSq ≠ 0 then v.mult (1 / Real.sqrt v.lengthSq) else w) ≤ 1 := by
  split
  · rename_i h
    have hs : Real.sqrt v.lengthSq * Real.sqrt v.lengthSq = v.x * v.x + v.y * v.y := length_sq v
    generalize Real.sqrt v.lengthSq = d at h hs
    have e : (v.mult (1 / d)).dot (v.mult (1 / d)) = (v.x * v.x + v.y * v.y) / (d * d) := by
      simp only [Vec.dot, Vec.mult]; field_simp
    rw [e, ← hs, div_self (mul_ne_zero h h)]
  · exact hw

theorem edgeOfSegment_core (g : Segment ℝ) (h : Word) (n : Vec ℝ) :
    (Cls.seg g).core (edgeOfSegment g h n).a ∧ (Cls.seg g).core (edgeOfSegment g h n).b ∧ (edgeOfSegment g h n).r = g.r := by
  have h1 : (Cls.seg g).core g.ta := Hull.pt (by simp [Cls.verts])
  have h2 : (Cls.seg g).core g.tb := Hull.pt (by simp [Cls.verts])
  unfold edgeOfSegment
  split <;> simp [h1, h2]

theorem edgeOfPoly_core (g : Poly ℝ) (h : Word) (n : Vec ℝ) (hne : g.dst ≠ []) :
    (Cls.poly g).core (edgeOfPoly g h n).a ∧ (Cls.poly g).core (edgeOfPoly g h n).b ∧ (edgeOfPoly g h n).r = g.r := by
  have hv : ∀ i, i < g.dst.length → (Cls.poly g).core (vert g.dst i) := fun i hi => Hull.pt (vert_mem hi)
  have hpos : 0 < g.dst.length := List.length_pos_iff.2 hne
  have h1 := hv _ (supportIndex_lt g.dst hne n)
  have h0 := hv _ (Nat.mod_lt (supportIndex g.dst n + g.dst.length - 1) hpos)
  have h2 := hv _ (Nat.mod_lt (supportIndex g.dst n + 1) hpos)
  simp only [edgeOfPoly]
  split
  · exact ⟨h0, h1, rfl⟩
  · exact ⟨h1, h2, rfl⟩

/-- What is known of the result of a pair of sorted shapes. -/
def InShapes (a b : Cls ℝ) (j : Info ℝ) : Prop := ∀ k ∈ j.contacts, a.pts k.r1 ∧ b.pts k.r2

theorem contactPoints_in {a b : Cls ℝ} {e1 e2 : Edge ℝ} {c : Closest ℝ} {i j : Info ℝ} (hi : i.contacts = [])
    (h1 : a.core e1.a ∧ a.core e1.b ∧ e1.r = a.radius) (h2 : b.core e2.a ∧ b.core e2.b ∧ e2.r = b.radius)
    (hr1 : 0 ≤ a.radius) (hr2 : 0 ≤ b.radius) (hn : c.n.dot c.n ≤ 1) (h : contactPoints e1 e2 c i = some j) : InShapes a b j := by
  obtain ⟨j', e, _, _, hk⟩ := contactPoints_some e1 e2 c i hi
  rw [e] at h
  cases h
  intro k hkm
  obtain ⟨⟨t, u, k1, k2⟩, _⟩ := hk k hkm
  have comm : ∀ x y : Vec ℝ, x.add y = y.add x := by intro x y; ext <;> simp [Vec.add, add_comm]
  rw [k1, k2, comm, comm (c.n.mult (-e2.r))]
  refine ⟨thick_shift (Hull.mix h1.1 h1.2.1 (lerp_segment _ _ t)) hn ?_, thick_shift (Hull.mix h2.1 h2.2.1 (lerp_segment _ _ u)) hn ?_⟩
  · rw [h1.2.2, abs_of_nonneg hr1]
  · rw [h2.2.2, abs_neg, abs_of_nonneg hr2]

/-- Radii are not negative; a segment that meets a circle has different ends and a normal not longer than 1. -/
structure Proper (s : Cls ℝ) : Prop extends s.Fine where
  radius : 0 ≤ s.radius
  ends : ∀ g, s = .seg g → g.ta ≠ g.tb ∧ g.tn.dot g.tn ≤ 1

theorem Proper.ne {g : Poly ℝ} (h : Proper (.poly g)) : g.dst ≠ [] := by
  have := h.pos
  intro e
  simp [Cls.verts, e] at this

theorem collideSorted_in (a b : Shp ℝ) (ha : Proper a.cls) (hb : Proper b.cls) (i j : Info ℝ) (hi : i.contacts = [])
    (h : collideSorted a b i = some j) : InShapes a.cls b.cls j := by
  obtain ⟨⟨pts, st⟩, hg⟩ := C33_terminates a b i.id
  obtain ⟨pa, pb⟩ := C33_points ha.toFine hb.toFine hg
  have hn := gjk_normal hg
  have hra := ha.radius
  have hrb := hb.radius
  have nil : ∀ n id, InShapes a.cls b.cls ⟨n, id, i.contacts⟩ := by intro n id k hk; simp [hi] at hk
  have one : ∀ (n : Vec ℝ) (id : Nat) (p q : Vec ℝ) (w : Word), a.cls.pts p → b.cls.pts q →
      InShapes a.cls b.cls ⟨n, id, i.contacts ++ [⟨p, q, w⟩]⟩ := by
    intro n id p q w hp hq k hk
    simp only [hi, List.nil_append, List.mem_singleton] at hk
    subst hk
    exact ⟨hp, hq⟩
  unfold collideSorted at h
  cases ea : a.cls with
  | circle c1 =>
    rw [ea] at pa hra
    have hc1 : (Cls.circle c1).core c1.tc := Hull.pt (by simp [Cls.verts])
    have hp1 : ∀ n : Vec ℝ, n.dot n ≤ 1 → (Cls.circle c1).pts (c1.tc.add (n.mult c1.r)) :=
      fun n hn => thick_shift hc1 hn (le_of_eq (abs_of_nonneg hra))
    cases eb : b.cls with
    | circle c2 =>
      rw [eb] at hrb
      have hc2 : (Cls.circle c2).core c2.tc := Hull.pt (by simp [Cls.verts])
      have hp2 : ∀ n : Vec ℝ, n.dot n ≤ 1 → (Cls.circle c2).pts (c2.tc.add (n.mult (-c2.r))) :=
        fun n hn => thick_shift hc2 hn (by rw [abs_neg]; exact le_of_eq (abs_of_nonneg hrb))
      rw [ea, eb] at nil one
      simp only [ea, eb, circleToCircle] at h
      split at h
      · rw [push_some (by simp [hi])] at h
        simp only [Option.some.injEq] at h
        have hnn := unit_le (c2.tc.sub c1.tc) (w := ⟨1, 0⟩) (by norm_num [Vec.dot])
        rw [← h]
        exact one _ _ _ _ _ (hp1 _ hnn) (hp2 _ hnn)
      · cases h; exact nil _ _
    | seg g =>
      rw [eb] at hrb
      obtain ⟨hab, htn⟩ := hb.ends g eb
      rw [ea, eb] at nil one
      simp only [ea, eb, circleToSegment] at h
      obtain ⟨hq1, -⟩ := nearest_on_segment g c1.tc hab
      obtain ⟨q, hq⟩ : ∃ q, q = (g.ta.add ((g.tb.sub g.ta).mult
        (clamp01 ((g.tb.sub g.ta).dot (c1.tc.sub g.ta) / (g.tb.sub g.ta).lengthSq)))) := ⟨_, rfl⟩
      rw [← hq] at h hq1
      have hc2 : (Cls.seg g).core q := Hull.mix (Hull.pt (by simp [Cls.verts])) (Hull.pt (by simp [Cls.verts])) hq1
      have hp2 : ∀ n : Vec ℝ, n.dot n ≤ 1 → (Cls.seg g).pts (q.add (n.mult (-g.r))) :=
        fun n hn => thick_shift hc2 hn (by rw [abs_neg]; exact le_of_eq (abs_of_nonneg hrb))
      have hnn := unit_le (q.sub c1.tc) htn
      by_cases hc : (q.sub c1.tc).lengthSq < (c1.r + g.r) * (c1.r + g.r)
      · rw [if_pos hc] at h
        simp only [sqrt_real] at h
        have key : ∀ {P : Prop} {_ : Decidable P} {n : Vec ℝ} {p q : Vec ℝ}, a.cls.pts p → b.cls.pts q →
            (if P then (⟨n, i.id, i.contacts⟩ : Info ℝ).push p q 0#64 else some ⟨n, i.id, i.contacts⟩) = some j →
            InShapes (.circle c1) (.seg g) j := by
          intro P _ n p q hp hq h
          rw [ea] at hp
          rw [eb] at hq
          split at h
          · rw [push_some (by simp [hi])] at h
            cases h
            exact one _ _ _ _ _ hp hq
          · cases h; exact nil _ _
        refine key ?_ ?_ h
        · rw [ea]; exact hp1 _ hnn
        · rw [eb]; exact hp2 _ hnn
      · rw [if_neg hc] at h
        cases h; exact nil _ _
    | poly g =>
      rw [eb] at hrb pb
      rw [ea, eb] at nil one
      have hne : (Cls.poly g : Cls ℝ).nonempty = true := by
        have := (eb ▸ hb : Proper (.poly g)).ne
        simp [Cls.nonempty, this]
      simp only [ea, eb, hne, not_true_eq_false, if_false, hg, Option.bind_eq_bind, Option.bind_some, circleToPoly] at h
      split at h
      · rw [push_some (by simp [hi])] at h
        simp only [Option.some.injEq] at h
        rw [← h]
        exact one _ _ _ _ _ (thick_shift pa hn (le_of_eq (abs_of_nonneg hra))) (thick_shift pb hn (le_of_eq (abs_of_nonneg hrb)))
      · cases h; exact nil _ _
  | seg g1 =>
    rw [ea] at pa hra
    cases eb : b.cls with
    | circle c2 => rw [ea, eb] at h; cases h
    | seg g =>
      rw [eb] at hrb pb
      rw [ea, eb] at nil one
      simp only [ea, eb, hg, Option.bind_eq_bind, Option.bind_some, segmentToSegment] at h
      split at h
      · cases h; exact nil _ _
      · split at h
        · exact contactPoints_in (by exact hi) (edgeOfSegment_core g1 _ _) (edgeOfSegment_core g _ _) hra hrb hn h
        · cases h; exact nil _ _
    | poly g =>
      rw [eb] at hrb pb
      rw [ea, eb] at nil one
      have hne' := (eb ▸ hb : Proper (.poly g)).ne
      have hne : (Cls.poly g : Cls ℝ).nonempty = true := by simp [Cls.nonempty, hne']
      simp only [ea, eb, hne, not_true_eq_false, if_false, hg, Option.bind_eq_bind, Option.bind_some, segmentToPoly] at h
      split at h
      · exact contactPoints_in (by exact hi) (edgeOfSegment_core g1 _ _) (edgeOfPoly_core g _ _ hne') hra hrb hn h
      · cases h; exact nil _ _
  | poly g1 =>
    rw [ea] at pa hra
    cases eb : b.cls with
    | circle c2 => rw [ea, eb] at h; cases h
    | seg g => rw [ea, eb] at h; cases h
    | poly g =>
      rw [eb] at hrb pb
      rw [ea, eb] at nil one
      have hne' := (eb ▸ hb : Proper (.poly g)).ne
      have hne : (Cls.poly g : Cls ℝ).nonempty = true := by simp [Cls.nonempty, hne']
      have hne1' := (ea ▸ ha : Proper (.poly g1)).ne
      have hne1 : (Cls.poly g1 : Cls ℝ).nonempty = true := by simp [Cls.nonempty, hne1']
      simp only [ea, eb, hne, hne1, and_self, not_true_eq_false, if_false, hg, Option.bind_eq_bind, Option.bind_some,
        polyToPoly] at h
      split at h
      · exact contactPoints_in (by exact hi) (edgeOfPoly_core g1 _ _ hne1') (edgeOfPoly_core g _ _ hne') hra hrb hn h
      · cases h; exact nil _ _

/-- **Every contact lies in the two shapes**: `PointA` in the first, `PointB` in the second. -/
theorem C32_contacts_in_shapes (a b : Shp ℝ) (ha : Proper a.cls) (hb : Proper b.cls) (s : ContactSet ℝ)
    (h : shapesCollide a b = some s) : ∀ p ∈ s.points, a.cls.pts p.pointA ∧ b.cls.pts p.pointB := by
  unfold shapesCollide collide at h
  simp only at h
  split at h
  · cases hc : collideSorted b a ⟨⟨0, 0⟩, 0, []⟩ with
    | none => rw [hc] at h; cases h
    | some j =>
      rw [hc] at h
      simp only [Option.map_some, Option.some.injEq] at h
      have := collideSorted_in b a hb ha _ j rfl hc
      subst h
      intro p hp
      simp only [if_true, List.mem_map] at hp
      obtain ⟨k, hk, rfl⟩ := hp
      exact ⟨(this k hk).2, (this k hk).1⟩
  · cases hc : collideSorted a b ⟨⟨0, 0⟩, 0, []⟩ with
    | none => rw [hc] at h; cases h
    | some j =>
      rw [hc] at h
      simp only [Option.map_some, Option.some.injEq] at h
      have := collideSorted_in a b ha hb _ j rfl hc
      subst h
      intro p hp
      simp only [Bool.false_eq_true, if_false, List.mem_map] at hp
      obtain ⟨k, hk, rfl⟩ := hp
      exact this k hk


/-- Segments and polygons, not in the wrong order: no contact with a positive distance is reported (for every arithmetic). -/
theorem C32_penetrating {F : Type} [GoFloat F] (a b : Shp F) (ha : ∀ c, a.cls ≠ .circle c) (hb : ∀ c, b.cls ≠ .circle c)
    (ho : a.cls.order ≤ b.cls.order) (s : ContactSet F) (h : shapesCollide a b = some s) : ∀ p ∈ s.points, p.distance ≤ 0 := by
  unfold shapesCollide collide at h
  simp only at h
  rw [if_neg (not_lt.2 ho)] at h
  have key : ∀ (e1 e2 : Edge F) (c : Closest F) (i j : Info F), i.contacts = [] → contactPoints e1 e2 c i = some j →
      ∀ k ∈ j.contacts, (k.r2.sub k.r1).dot j.n ≤ 0 := by
    intro e1 e2 c i j hi h k hk
    obtain ⟨j', e, _, hn, hk'⟩ := contactPoints_some e1 e2 c i hi
    rw [e] at h
    cases h
    rw [(hn (List.ne_nil_of_mem hk)).1]
    exact (hk' k hk).2
  have main : ∀ j, collideSorted a b ⟨⟨0, 0⟩, 0, []⟩ = some j → ∀ k ∈ j.contacts, (k.r2.sub k.r1).dot j.n ≤ 0 := by
    intro j h
    unfold collideSorted at h
    cases ea : a.cls with
    | circle c => exact absurd ea (ha c)
    | seg g1 =>
      cases eb : b.cls with
      | circle c => exact absurd eb (hb c)
      | seg g =>
        simp only [ea, eb] at h
        cases hg : gjk a b 0 with
        | none => rw [hg] at h; cases h
        | some r =>
          simp only [hg, Option.bind_eq_bind, Option.bind_some, segmentToSegment] at h
          split at h
          · cases h; simp
          · split at h
            · exact key _ _ _ _ _ rfl h
            · cases h; simp
      | poly g =>
        simp only [ea, eb] at h
        split at h
        · cases h
        · cases hg : gjk a b 0 with
          | none => rw [hg] at h; cases h
          | some r =>
            simp only [hg, Option.bind_eq_bind, Option.bind_some, segmentToPoly] at h
            split at h
            · exact key _ _ _ _ _ rfl h
            · cases h; simp
    | poly g1 =>
      cases eb : b.cls with
      | circle c => exact absurd eb (hb c)
      | seg g => rw [ea, eb] at ho; simp [Cls.order] at ho
      | poly g =>
        simp only [ea, eb] at h
        split at h
        · cases h
        · cases hg : gjk a b 0 with
          | none => rw [hg] at h; cases h
          | some r =>
            simp only [hg, Option.bind_eq_bind, Option.bind_some, polyToPoly] at h
            split at h
            · exact key _ _ _ _ _ rfl h
            · cases h; simp
  cases hc : collideSorted a b ⟨⟨0, 0⟩, 0, []⟩ with
  | none => rw [hc] at h; cases h
  | some j =>
    rw [hc] at h
    simp only [Option.map_some, Option.some.injEq] at h
    subst h
    intro p hp
    simp only [Bool.false_eq_true, if_false, List.mem_map] at hp
    obtain ⟨k, hk, rfl⟩ := hp
    exact main j hc k hk

/-! ### The rounded polygon -/

/-- **A circle and a polygon with a radius**: the contact is put on the wrong side of the polygon's core. The shapes overlap
by one unit, and the contact is reported at a distance of more than 2. (`CircleToPoly` adds `n * poly.r`, all other functions
subtract it.) -/
theorem C32_circle_poly_violated : ∃ a b : Shp ℝ, Proper a.cls ∧ Proper b.cls ∧
    (∃ x, a.cls.core x ∧ ∃ y, b.cls.core y ∧ x.distance y + 1 ≤ a.cls.radius + b.cls.radius) ∧
    ∃ s p, shapesCollide a b = some s ∧ p ∈ s.points ∧ 2 < p.distance := by
  refine ⟨ball 3, triShp 2, ⟨ball_fine 3 (by norm_num), by norm_num [ball, Cls.radius], ?_⟩,
    ⟨tri_fine 2, by norm_num [triShp, tri, Cls.radius], ?_⟩, ?_, ?_⟩
  · intro g hg; simp [ball] at hg
  · intro g hg; simp [triShp] at hg
  · refine ⟨⟨3, 0⟩, Hull.pt (by simp [ball, Cls.verts]), ⟨1, 0⟩, Hull.mix (p := ⟨1, -1⟩) (q := ⟨1, 1⟩) (Hull.pt ?_) (Hull.pt ?_)
      ⟨1 / 2, by norm_num, by norm_num, ?_⟩, ?_⟩
    · simp [triShp, tri, Cls.verts]
    · simp [triShp, tri, Cls.verts]
    · ext <;> norm_num
    · have : Vec.distance (F := ℝ) ⟨3, 0⟩ ⟨1, 0⟩ ≤ 2 := by rw [Vec.distance_le_iff (by norm_num)]; norm_num
      have e : (ball 3).cls.radius + (triShp 2).cls.radius = 3 := by norm_num [ball, triShp, tri, Cls.radius]
      rw [e]; linarith
  · have t1 : (⟨-2, 1⟩ : Vec ℝ).closestT ⟨-2, -1⟩ = 0 := by
      norm_num [Vec.closestT, Vec.sub, Vec.lengthSq, Vec.dot, Vec.add, clamp]
    have hsc : scale ((⟨-2, -1⟩ : Vec ℝ).sub ⟨-2, 1⟩) = 1 / (2 + 1 / 10 ^ 15) := by
      have : ((⟨-2, -1⟩ : Vec ℝ).sub ⟨-2, 1⟩).length = 2 := by
        have e : ((⟨-2, -1⟩ : Vec ℝ).sub ⟨-2, 1⟩).dot ((⟨-2, -1⟩ : Vec ℝ).sub ⟨-2, 1⟩) = 2 ^ 2 := by
          norm_num [Vec.sub, Vec.dot]
        rw [Vec.length, e, sqrt_real]; exact Real.sqrt_sq (by norm_num)
      rw [scale, this]
    obtain ⟨ha, hb, hc⟩ := closestPoints_cases ⟨⟨3, 0⟩, ⟨1, 1⟩, ⟨-2, 1⟩, 1⟩ ⟨⟨3, 0⟩, ⟨1, -1⟩, ⟨-2, -1⟩, 0⟩
    simp only [t1] at ha hb hc
    have hc' : (Mink.closestPoints (F := ℝ) ⟨⟨3, 0⟩, ⟨1, 1⟩, ⟨-2, 1⟩, 1⟩ ⟨⟨3, 0⟩, ⟨1, -1⟩, ⟨-2, -1⟩, 0⟩).d = 4 / (2 + 1 / 10 ^ 15) ∧
        (Mink.closestPoints (F := ℝ) ⟨⟨3, 0⟩, ⟨1, 1⟩, ⟨-2, 1⟩, 1⟩ ⟨⟨3, 0⟩, ⟨1, -1⟩, ⟨-2, -1⟩, 0⟩).n = ⟨-2 / (2 + 1 / 10 ^ 15), 0⟩ := by
      rcases hc with ⟨hd, hn, _⟩ | ⟨_, hd, _⟩
      · rw [hd, hn, normalize_eq, hsc]
        constructor
        · norm_num [Vec.cross]
        · ext <;> norm_num [Vec.rperp, Vec.mult, Vec.sub]
      · norm_num at hd
    have hg := far_gjk 2
    revert ha hb hc' hg
    generalize Mink.closestPoints (F := ℝ) ⟨⟨3, 0⟩, ⟨1, 1⟩, ⟨-2, 1⟩, 1⟩ ⟨⟨3, 0⟩, ⟨1, -1⟩, ⟨-2, -1⟩, 0⟩ = c
    intro ha hb hc' hg
    unfold shapesCollide collide collideSorted
    have e1 : (ball 3).cls = .circle ⟨⟨0, 0⟩, ⟨3, 0⟩, 1⟩ := rfl
    have e2 : (triShp 2).cls = .poly (tri 2) := rfl
    have e3 : (Cls.poly (tri 2)).nonempty = true := rfl
    have e4 : c.d ≤ 1 + (tri 2).r := by rw [hc'.1]; norm_num [tri]
    simp only [e1, e2, e3, Cls.order]
    rw [if_neg (by norm_num)]
    simp only [not_true_eq_false, if_false, hg, Option.bind_eq_bind, Option.bind_some, circleToPoly]
    rw [if_pos e4, push_some (by simp)]
    refine ⟨_, _, rfl, List.mem_singleton.2 rfl, ?_⟩
    simp only [Bool.false_eq_true, if_false, hc'.2, ha, hb]
    norm_num [tri, Vec.lerpT, Vec.add, Vec.mult, Vec.sub, Vec.dot]

/-- Shapes of different classes in contact: the distance of the reverse pair is positive. -/
theorem C32_swapped_violated : ∃ (a b : Shp ℝ) (s : ContactSet ℝ) (p : SetPoint ℝ), Proper a.cls ∧ Proper b.cls ∧
    shapesCollide b a = some s ∧ p ∈ s.points ∧ p.distance = 1 ∧ ∃ q, a.cls.core q ∧ b.cls.core q := by
  obtain ⟨g, hg⟩ : ∃ g : Segment ℝ, g = ⟨⟨0, 0⟩, ⟨0, 0⟩, ⟨0, 0⟩, ⟨-1, 0⟩, ⟨1, 0⟩, ⟨0, 1⟩, 0, ⟨0, 0⟩, ⟨0, 0⟩⟩ := ⟨_, rfl⟩
  have hab : g.ta ≠ g.tb := by rw [hg]; norm_num
  have hlen : g.tn.length = 1 := by rw [hg]; norm_num [Vec.length, Vec.dot]
  have e : (2 : ℝ) ≤ 2 ^ 500 := by
    calc (2 : ℝ) = 2 ^ 1 := by norm_num
      _ ≤ 2 ^ 500 := pow_le_pow_right₀ (by norm_num) (by norm_num)
  have h0 : OnSegment g.ta g.tb ⟨0, 0⟩ := ⟨1 / 2, by norm_num, by norm_num, by rw [hg]; ext <;> norm_num⟩
  obtain ⟨s, q, hs, hq1, hq2, hiff, hp⟩ := C32_circle_segment (ball 0) ⟨.seg g, ⟨-1, 0, 1, 0⟩, ⟨1, 0⟩, 2#64⟩
    ⟨⟨0, 0⟩, ⟨0, 0⟩, 1⟩ g rfl rfl (by norm_num) (by rw [hg]) hab (by rw [hg]) (by rw [hg]) hlen
  have hd : Vec.distance (F := ℝ) ⟨0, 0⟩ q = 0 := by
    refine le_antisymm ?_ (Vec.distance_nonneg _ _)
    have := hq2 _ h0
    rwa [Vec.distance_self] at this
  have hne : s.points ≠ [] := hiff.2 (by rw [hd, hg]; norm_num)
  obtain ⟨p, rest, he⟩ := List.exists_cons_of_ne_nil hne
  have hpm : p ∈ s.points := by rw [he]; simp
  obtain ⟨_, _, _, _, hdist, _⟩ := hp p hpm
  refine ⟨ball 0, ⟨.seg g, ⟨-1, 0, 1, 0⟩, ⟨1, 0⟩, 2#64⟩, CP.ContactSet.mirrorNeg s, ⟨p.pointB, p.pointA, -p.distance⟩,
    ⟨ball_fine 0 (by norm_num), by norm_num [ball, Cls.radius], ?_⟩, ⟨⟨by simp [Cls.verts], by simp [Cls.verts], ?_⟩, ?_, ?_⟩, ?_,
    List.mem_map.2 ⟨p, hpm, rfl⟩, ?_, ?_⟩
  · intro g hg; simp [ball] at hg
  · intro v hv
    simp only [Cls.verts, hg, List.mem_cons, List.not_mem_nil, or_false] at hv
    rcases hv with rfl | rfl <;> constructor <;> refine le_trans ?_ e <;> norm_num [abs_le]
  · rw [hg]; norm_num [Cls.radius]
  · intro g' hg'
    cases hg'
    exact ⟨hab, by rw [← length_sq, hlen]; norm_num⟩
  · rw [C32_swapped_distance _ _ (by simp [ball, Cls.order]), hs]; rfl
  · rw [hdist, hd, hg]; norm_num
  · exact ⟨⟨0, 0⟩, Hull.pt (by simp [ball, Cls.verts]), Hull.mix (Hull.pt (by simp [Cls.verts])) (Hull.pt (by simp [Cls.verts])) h0⟩

end CP
