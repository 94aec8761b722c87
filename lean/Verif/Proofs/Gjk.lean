import Verif.Proofs.Collide

/-! # Soundness of GJK and EPA over the reals -/

namespace CP
namespace Coll
open GoFloat

theorem pointGreater_origin (v b : Vec ℝ) : v.pointGreater b ⟨0, 0⟩ = true ↔ b.cross v < 0 := by
  simp only [Vec.pointGreater, decide_eq_true_eq, Vec.cross, lit_real]
  constructor <;> intro h <;> push_cast at * <;> nlinarith

theorem pointGreater_iff (v0 v1 p : Vec ℝ) :
    v0.pointGreater v1 p = true ↔ (v1.sub v0).perp.dot v0 < (v1.sub v0).perp.dot p := by
  simp only [Vec.pointGreater, decide_eq_true_eq, Vec.perp, Vec.dot, Vec.sub, lit_real]
  constructor <;> intro h <;> push_cast at * <;> nlinarith

theorem lengthSq_eq_zero {v : Vec ℝ} (h : v.lengthSq = 0) : v = ⟨0, 0⟩ := by
  simp only [Vec.lengthSq, Vec.dot] at h
  have h1 : v.x = 0 := by nlinarith [mul_self_nonneg v.x, mul_self_nonneg v.y]
  have h2 : v.y = 0 := by nlinarith [mul_self_nonneg v.x, mul_self_nonneg v.y]
  ext <;> assumption

/-- The three cases of `ClosestT` for different points. -/
theorem closestT_cases (v0 v1 : Vec ℝ) (h : (v1.sub v0).lengthSq ≠ 0) :
    (-1 < v0.closestT v1 ∧ v0.closestT v1 < 1 ∧
      v0.closestT v1 * (v1.sub v0).lengthSq = -(v1.sub v0).dot (v0.add v1)) ∨
    (v0.closestT v1 = 1 ∧ v1.dot v1 ≤ v0.dot v1) ∨ (v0.closestT v1 = -1 ∧ v0.dot v0 ≤ v0.dot v1) := by
  have hpos : 0 < (v1.sub v0).lengthSq := by
    have : 0 ≤ (v1.sub v0).lengthSq := by simp only [Vec.lengthSq, Vec.dot]; nlinarith [mul_self_nonneg (v1.sub v0).x, mul_self_nonneg (v1.sub v0).y]
    exact lt_of_le_of_ne this (Ne.symm h)
  have hdot : (v1.sub v0).dot (v0.add v1) = v1.dot v1 - v0.dot v0 := by
    simp only [Vec.dot, Vec.sub, Vec.add]; ring
  have hsq : (v1.sub v0).lengthSq = v1.dot v1 - 2 * v0.dot v1 + v0.dot v0 := by
    simp only [Vec.lengthSq, Vec.dot, Vec.sub]; ring
  simp only [Vec.closestT, if_neg h, clamp, lit_real]
  push_cast
  obtain ⟨q, hq⟩ : ∃ q, q = (v1.sub v0).dot (v0.add v1) / (v1.sub v0).lengthSq := ⟨_, rfl⟩
  have hq' : q * (v1.sub v0).lengthSq = (v1.sub v0).dot (v0.add v1) := by rw [hq]; field_simp
  rw [← hq]
  by_cases h1 : -1 < q
  · rw [if_pos h1]
    by_cases h2 : q < 1
    · left
      rw [min_eq_left h2.le]
      exact ⟨by linarith, by linarith, by rw [neg_mul, hq']⟩
    · right; right
      rw [min_eq_right (not_lt.1 h2)]
      refine ⟨rfl, ?_⟩
      have : (v1.sub v0).lengthSq ≤ q * (v1.sub v0).lengthSq := le_mul_of_one_le_left hpos.le (not_lt.1 h2)
      rw [hq', hdot, hsq] at this
      linarith
  · right; left
    rw [if_neg h1, min_eq_left (by norm_num)]
    refine ⟨by norm_num, ?_⟩
    have : q * (v1.sub v0).lengthSq ≤ -1 * (v1.sub v0).lengthSq := mul_le_mul_of_nonneg_right (not_lt.1 h1) hpos.le
    rw [hq', hdot, hsq] at this
    linarith

theorem closestT_same (v0 v1 : Vec ℝ) (h : (v1.sub v0).lengthSq = 0) : v0.closestT v1 = 1 := by
  simp only [Vec.closestT, if_pos h, lit_real]; norm_num

theorem closestT_range (v0 v1 : Vec ℝ) : -1 ≤ v0.closestT v1 ∧ v0.closestT v1 ≤ 1 := by
  by_cases h : (v1.sub v0).lengthSq = 0
  · rw [closestT_same _ _ h]; norm_num
  · rcases closestT_cases v0 v1 h with ⟨h1, h2, _⟩ | ⟨h1, _⟩ | ⟨h1, _⟩
    · exact ⟨h1.le, h2.le⟩
    · rw [h1]; norm_num
    · rw [h1]; norm_num

theorem lerpT_segment (u v : Vec ℝ) {t : ℝ} (h1 : -1 ≤ t) (h2 : t ≤ 1) : OnSegment u v (u.lerpT v t) := by
  refine ⟨(1 + t) / 2, by linarith, by linarith, ?_⟩
  ext <;> simp only [Vec.lerpT, Vec.add, Vec.mult, lit_real] <;> push_cast <;> ring

theorem lerpT_sub (a0 a1 b0 b1 : Vec ℝ) (t : ℝ) :
    (b0.sub a0).lerpT (b1.sub a1) t = (b0.lerpT b1 t).sub (a0.lerpT a1 t) := by
  ext <;> simp only [Vec.lerpT, Vec.add, Vec.mult, Vec.sub, lit_real] <;> ring

theorem length_nonneg (v : Vec ℝ) : 0 ≤ v.length := Real.sqrt_nonneg _
theorem length_sq (v : Vec ℝ) : v.length * v.length = v.dot v := by
  simp only [Vec.length, sqrt_real]
  exact Real.mul_self_sqrt (by simp only [Vec.dot]; nlinarith [mul_self_nonneg v.x, mul_self_nonneg v.y])
theorem length_rperp (v : Vec ℝ) : v.rperp.length = v.length := by
  simp only [Vec.length, Vec.rperp, Vec.dot]; congr 1; ring

theorem dot_le_length {n x : Vec ℝ} (hn : n.dot n ≤ 1) : n.dot x ≤ x.length := by
  have h1 := length_sq x
  have h0 := length_nonneg x
  by_contra hc
  push Not at hc
  have h2 : x.length * x.length < n.dot x * n.dot x := mul_self_lt_mul_self h0 hc
  have h3 : n.dot x * n.dot x ≤ n.dot n * x.dot x := by
    simp only [Vec.dot]; nlinarith [sq_nonneg (n.x * x.y - n.y * x.x)]
  have h4 : 0 ≤ x.dot x := by rw [← h1]; positivity
  nlinarith

/-- The scale of the normal of an edge. -/
noncomputable def scale (v : Vec ℝ) : ℝ := 1 / (v.length + 1 / 10 ^ 15)

theorem scale_pos (v : Vec ℝ) : 0 < scale v := by
  unfold scale
  have := length_nonneg v
  positivity

theorem normalize_eq (v : Vec ℝ) : v.rperp.normalize = v.rperp.mult (scale v) := by
  simp only [Vec.normalize, length_rperp, scale, lit_real]; push_cast; rfl

theorem edgeNormal_le_one (v : Vec ℝ) : v.rperp.normalize.dot v.rperp.normalize ≤ 1 := by
  rw [normalize_eq]
  have h : (v.rperp.mult (scale v)).dot (v.rperp.mult (scale v)) = scale v * scale v * v.dot v := by
    simp only [Vec.dot, Vec.rperp, Vec.mult]; ring
  rw [h, ← length_sq]
  have h0 := length_nonneg v
  have h1 : scale v * v.length ≤ 1 := by
    unfold scale
    rw [one_div, inv_mul_le_one₀ (by positivity)]
    have : (0 : ℝ) ≤ 1 / 10 ^ 15 := by positivity
    linarith
  have h2 : 0 ≤ scale v * v.length := mul_nonneg (scale_pos v).le h0
  nlinarith

/-- `n · p` for a point of the line through `v0` and `v1`, `n` the normal of the edge. -/
theorem edge_dist (v0 v1 : Vec ℝ) (t : ℝ) :
    (v1.sub v0).rperp.normalize.dot (v0.lerpT v1 t) = scale (v1.sub v0) * v0.cross v1 := by
  rw [normalize_eq]
  simp only [Vec.dot, Vec.rperp, Vec.mult, Vec.lerpT, Vec.add, Vec.sub, Vec.cross, lit_real]; push_cast; ring

/-- Nothing beyond the edge: the normal of the edge separates at the distance of the edge. -/
theorem edge_sound {v0 v1 x : Vec ℝ} (h : (v1.sub v0).perp.dot x ≤ (v1.sub v0).perp.dot v0) :
    scale (v1.sub v0) * v0.cross v1 ≤ (v1.sub v0).rperp.normalize.dot x := by
  rw [normalize_eq]
  have e : ((v1.sub v0).rperp.mult (scale (v1.sub v0))).dot x = scale (v1.sub v0) * (-(v1.sub v0).perp.dot x) := by
    simp only [Vec.dot, Vec.rperp, Vec.perp, Vec.mult]; ring
  have e2 : (v1.sub v0).perp.dot v0 = - v0.cross v1 := by simp only [Vec.dot, Vec.perp, Vec.sub, Vec.cross]; ring
  rw [e]
  exact mul_le_mul_of_nonneg_left (by linarith) (scale_pos _).le

/-- What `ClosestPoints` returns. -/
theorem closestPoints_cases (v0 v1 : Mink ℝ) :
    (v0.closestPoints v1).a = v0.a.lerpT v1.a (v0.ab.closestT v1.ab) ∧
    (v0.closestPoints v1).b = v0.b.lerpT v1.b (v0.ab.closestT v1.ab) ∧
    (((v0.closestPoints v1).d = scale (v1.ab.sub v0.ab) * v0.ab.cross v1.ab ∧
        (v0.closestPoints v1).n = (v1.ab.sub v0.ab).rperp.normalize ∧
        (v0.ab.cross v1.ab ≤ 0 ∨ (-1 < v0.ab.closestT v1.ab ∧ v0.ab.closestT v1.ab < 1))) ∨
      (0 < v0.ab.cross v1.ab ∧ ¬ (-1 < v0.ab.closestT v1.ab ∧ v0.ab.closestT v1.ab < 1) ∧
        (v0.closestPoints v1).d = (v0.ab.lerpT v1.ab (v0.ab.closestT v1.ab)).length ∧
        (v0.closestPoints v1).n = (v0.ab.lerpT v1.ab (v0.ab.closestT v1.ab)).mult
          (scale (v0.ab.lerpT v1.ab (v0.ab.closestT v1.ab))))) := by
  have hd := edge_dist v0.ab v1.ab (v0.ab.closestT v1.ab)
  have hs := scale_pos (v1.ab.sub v0.ab)
  have hlit : (lit (-1) : ℝ) = -1 := by rw [lit_real]; norm_num
  simp only [Mink.closestPoints, hd, hlit]
  by_cases h : scale (v1.ab.sub v0.ab) * v0.ab.cross v1.ab ≤ 0 ∨ (-1 < v0.ab.closestT v1.ab ∧ v0.ab.closestT v1.ab < 1)
  · rw [if_pos h]
    refine ⟨rfl, rfl, Or.inl ⟨rfl, rfl, ?_⟩⟩
    rcases h with h | h
    · left
      by_contra hc
      push Not at hc
      have := mul_pos hs hc
      linarith
    · exact Or.inr h
  · rw [if_neg h]
    push Not at h
    refine ⟨rfl, rfl, Or.inr ⟨?_, ?_, rfl, ?_⟩⟩
    · exact (mul_pos_iff_of_pos_left hs).1 h.1
    · intro hc; have := h.2 hc.1; linarith [hc.2]
    · simp only [scale, lit_real]; push_cast; rfl

theorem closestPoints_core {s1 s2 : Cls ℝ} {v0 v1 : Mink ℝ} (h0 : v0.Ok s1 s2) (h1 : v1.Ok s1 s2) :
    s1.core (v0.closestPoints v1).a ∧ s2.core (v0.closestPoints v1).b ∧
      (v0.closestPoints v1).b.sub (v0.closestPoints v1).a = v0.ab.lerpT v1.ab (v0.ab.closestT v1.ab) := by
  obtain ⟨ea, eb, _⟩ := closestPoints_cases v0 v1
  obtain ⟨r1, r2⟩ := closestT_range v0.ab v1.ab
  rw [ea, eb]
  exact ⟨Hull.mix (Hull.pt h0.mem.1) (Hull.pt h1.mem.1) (lerpT_segment _ _ r1 r2),
    Hull.mix (Hull.pt h0.mem.2) (Hull.pt h1.mem.2) (lerpT_segment _ _ r1 r2), by rw [h0.ab, h1.ab, lerpT_sub]⟩

theorem small_axis {v0 v1 : Mink ℝ} (h0 : |v0.ab.x| ≤ 2 ^ 501 ∧ |v0.ab.y| ≤ 2 ^ 501)
    (h1 : |v1.ab.x| ≤ 2 ^ 501 ∧ |v1.ab.y| ≤ 2 ^ 501) : Small (v1.ab.sub v0.ab).perp ∧ Small (gjkAxis v0 v1) := by
  have e : (2 : ℝ) ^ 501 + 2 ^ 501 ≤ 2 ^ 510 := by
    have : (2 : ℝ) ^ 501 + 2 ^ 501 = 2 ^ 502 := by rw [pow_succ (2 : ℝ) 501]; ring
    rw [this]; exact pow_le_pow_right₀ (by norm_num) (by norm_num)
  have e' : (2 : ℝ) ^ 501 ≤ 2 ^ 510 := pow_le_pow_right₀ (by norm_num) (by norm_num)
  have hs : Small (v1.ab.sub v0.ab).perp := by
    simp only [Small, Vec.perp, Vec.sub, abs_neg]
    exact ⟨((abs_sub _ _).trans (add_le_add h1.2 h0.2)).trans e, ((abs_sub _ _).trans (add_le_add h1.1 h0.1)).trans e⟩
  refine ⟨hs, ?_⟩
  simp only [gjkAxis]
  split
  · exact hs
  · obtain ⟨s, s0, s1, hs⟩ := lerpT_segment v0.ab v1.ab (closestT_range v0.ab v1.ab).1 (closestT_range v0.ab v1.ab).2
    rw [hs]
    have key : ∀ u w : ℝ, |u| ≤ 2 ^ 501 → |w| ≤ 2 ^ 501 → |u + s * (w - u)| ≤ 2 ^ 501 := by
      intro u w hu hw
      have : u + s * (w - u) = (1 - s) * u + s * w := by ring
      rw [this]
      refine (abs_add_le _ _).trans ?_
      rw [abs_mul, abs_mul, abs_of_nonneg s0, abs_of_nonneg (by linarith : 0 ≤ 1 - s)]
      nlinarith [abs_nonneg u, abs_nonneg w]
    simp only [Small, Vec.neg, abs_neg]
    exact ⟨(key _ _ h0.1 h1.1).trans e', (key _ _ h0.2 h1.2).trans e'⟩

theorem distance_length (a b : Vec ℝ) : a.distance b = (b.sub a).length := by
  simp only [Vec.distance, Vec.length, Vec.dot, Vec.sub]; congr 1; ring

/-- GJK stops on the axis check. -/
theorem axis_sound {s1 s2 : Cls ℝ} (hs1 : s1.Fine) (hs2 : s2.Fine) {v0 v1 : Mink ℝ} (h0 : v0.Ok s1 s2) (h1 : v1.Ok s1 s2)
    (hflip : v1.ab.pointGreater v0.ab ⟨0, 0⟩ = false)
    (hcheck : v0.ab.checkAxis v1.ab (supportM s1 s2 (gjkAxis v0 v1)).ab (gjkAxis v0 v1) = true) :
    0 ≤ (v0.closestPoints v1).d ∧ (0 < (v0.closestPoints v1).d → Apart s1 s2 (v0.closestPoints v1)) := by
  obtain ⟨ca, cb, hcd⟩ := closestPoints_core h0 h1
  obtain ⟨-, -, hc⟩ := closestPoints_cases v0 v1
  have hcross : 0 ≤ v0.ab.cross v1.ab := by
    by_contra hc
    push Not at hc
    rw [← Bool.not_eq_true, pointGreater_origin] at hflip
    exact hflip hc
  have hsm := (small_axis (h0.bounded hs1 hs2) (h1.bounded hs1 hs2)).2
  have hmax : ∀ a b, s1.core a → s2.core b →
      (gjkAxis v0 v1).dot (b.sub a) ≤ max (v0.ab.dot (gjkAxis v0 v1)) (v1.ab.dot (gjkAxis v0 v1)) := by
    intro a b ha hb
    refine (supportM_max hs1 hs2 hsm ha hb).trans ?_
    rw [dot_comm]
    simpa only [Vec.checkAxis, decide_eq_true_eq] using hcheck
  have hs := scale_pos (v1.ab.sub v0.ab)
  have hdist := distance_length (v0.closestPoints v1).a (v0.closestPoints v1).b
  rw [hcd] at hdist
  have hlit : (lit (-1) : ℝ) = -1 := by rw [lit_real]; norm_num
  rcases hc with ⟨hd, hn, hin⟩ | ⟨hcp, hnin, hd, hn⟩
  · refine ⟨by rw [hd]; exact mul_nonneg hs.le hcross, fun hpos => ?_⟩
    rw [hd] at hpos
    have hcp : 0 < v0.ab.cross v1.ab := (mul_pos_iff_of_pos_left hs).1 hpos
    have hin' : -1 < v0.ab.closestT v1.ab ∧ v0.ab.closestT v1.ab < 1 := by
      rcases hin with h | h
      · linarith
      · exact h
    have hne : (v1.ab.sub v0.ab).lengthSq ≠ 0 := by
      intro h
      have := lengthSq_eq_zero h
      have e : v0.ab.cross v1.ab = v0.ab.cross (v1.ab.sub v0.ab) := by simp only [Vec.cross, Vec.sub]; ring
      rw [e, this] at hcp
      simp [Vec.cross] at hcp
    have hax : gjkAxis v0 v1 = (v1.ab.sub v0.ab).perp := by
      simp only [gjkAxis, hlit]; rw [if_pos hin']
    have hsep : ∀ a b, s1.core a → s2.core b →
        (v0.closestPoints v1).d ≤ (v0.closestPoints v1).n.dot (b.sub a) := by
      intro a b ha hb
      rw [hd, hn]
      apply edge_sound
      have := hmax a b ha hb
      rw [hax] at this
      have e : v1.ab.dot (v1.ab.sub v0.ab).perp = v0.ab.dot (v1.ab.sub v0.ab).perp := by
        simp only [Vec.dot, Vec.perp, Vec.sub]; ring
      rw [e, max_self, dot_comm v0.ab] at this
      exact this
    have hδpos : 0 < (v1.ab.sub v0.ab).lengthSq := lt_of_le_of_ne (by
      simp only [Vec.lengthSq, Vec.dot]; nlinarith [sq_nonneg (v1.ab.sub v0.ab).x, sq_nonneg (v1.ab.sub v0.ab).y]) (Ne.symm hne)
    have horth : (v0.ab.lerpT v1.ab (v0.ab.closestT v1.ab)).dot (v1.ab.sub v0.ab) = 0 := by
      rcases closestT_cases v0.ab v1.ab hne with ⟨_, _, h⟩ | ⟨h, _⟩ | ⟨h, _⟩
      · have e : (v0.ab.lerpT v1.ab (v0.ab.closestT v1.ab)).dot (v1.ab.sub v0.ab) =
            ((v1.ab.sub v0.ab).dot (v0.ab.add v1.ab) + v0.ab.closestT v1.ab * (v1.ab.sub v0.ab).lengthSq) / 2 := by
          simp only [Vec.dot, Vec.lerpT, Vec.add, Vec.mult, Vec.sub, Vec.lengthSq, lit_real]; push_cast; ring
        rw [e, h]; ring
      · linarith [hin'.2]
      · linarith [hin'.1]
    refine ⟨?_, ?_, ?_, ?_, ?_⟩
    rotate_left 3
    · intro a b ha hb
      refine le_trans (le_of_eq ?_) (hsep a b ha hb)
      rw [hcd, hn, hd, edge_dist]
    · have hcr : (v0.ab.lerpT v1.ab (v0.ab.closestT v1.ab)).cross (v1.ab.sub v0.ab) = v0.ab.cross v1.ab := by
        simp only [Vec.cross, Vec.lerpT, Vec.add, Vec.mult, Vec.sub, lit_real]; push_cast; ring
      refine ⟨v0.ab.cross v1.ab / ((v1.ab.sub v0.ab).lengthSq * scale (v1.ab.sub v0.ab)), div_pos hcp (mul_pos hδpos hs), ?_⟩
      rw [hcd, hn, normalize_eq]
      rw [← hcr]
      generalize v0.ab.lerpT v1.ab (v0.ab.closestT v1.ab) = p at horth ⊢
      obtain ⟨δ, hδ⟩ : ∃ δ, δ = v1.ab.sub v0.ab := ⟨_, rfl⟩
      rw [← hδ] at hne horth hs ⊢
      have hsn := hs.ne'
      simp only [Vec.lengthSq, Vec.dot] at hne horth
      have hne' : δ.x ^ 2 + δ.y ^ 2 ≠ 0 := by intro h; apply hne; linear_combination h
      have hne'' : δ.y ^ 2 + δ.x ^ 2 ≠ 0 := by intro h; apply hne; linear_combination h
      ext
      · simp only [Vec.mult, Vec.rperp, Vec.lengthSq, Vec.dot, Vec.cross]
        field_simp
        linear_combination δ.x * horth
      · simp only [Vec.mult, Vec.rperp, Vec.lengthSq, Vec.dot, Vec.cross]
        field_simp
        linear_combination δ.y * horth
    · intro a b ha hb
      refine (hsep a b ha hb).trans ?_
      rw [hn, distance_length]
      exact dot_le_length (edgeNormal_le_one _)
    · intro a b ha hb
      exact lt_of_lt_of_le (by rw [hd]; exact hpos) (hsep a b ha hb)
    · right
      obtain ⟨δ, hδ⟩ : ∃ δ, δ = v1.ab.sub v0.ab := ⟨_, rfl⟩
      rw [← hδ] at hne hs hd hpos
      have hlpos : 0 < δ.length := by
        have h2 := length_sq δ
        rcases lt_or_eq_of_le (length_nonneg δ) with h | h
        · exact h
        · rw [← h] at h2; exact absurd (by simpa [Vec.lengthSq] using h2.symm) hne
      refine ⟨δ.length, hlpos, ?_⟩
      rw [hdist, hd]
      obtain ⟨p, hp⟩ : ∃ p, p = v0.ab.lerpT v1.ab (v0.ab.closestT v1.ab) := ⟨_, rfl⟩
      rw [← hp]
      -- `p` is orthogonal to the edge
      have horth : p.dot δ = 0 := by
        rcases closestT_cases v0.ab v1.ab (by rw [← hδ]; exact hne) with ⟨_, _, h⟩ | ⟨h, _⟩ | ⟨h, _⟩
        · rw [← hδ] at h
          have e : p.dot δ = (δ.dot (v0.ab.add v1.ab) + v0.ab.closestT v1.ab * δ.lengthSq) / 2 := by
            rw [hp, hδ]
            simp only [Vec.dot, Vec.lerpT, Vec.add, Vec.mult, Vec.sub, Vec.lengthSq, lit_real]; push_cast; ring
          rw [e, h]; ring
        · linarith [hin'.2]
        · linarith [hin'.1]
      have hcr : p.cross δ = v0.ab.cross v1.ab := by
        rw [hp, hδ]; simp only [Vec.cross, Vec.lerpT, Vec.add, Vec.mult, Vec.sub, lit_real]; push_cast; ring
      have hprod : p.length * δ.length = p.cross δ := by
        have h1 := length_sq p
        have h2 := length_sq δ
        have e : (p.length * δ.length) ^ 2 = (p.cross δ) ^ 2 := by
          have : p.cross δ ^ 2 = p.dot p * δ.dot δ - p.dot δ ^ 2 := by simp only [Vec.cross, Vec.dot]; ring
          rw [this, horth, ← h1, ← h2]; ring
        have := (sq_eq_sq₀ (mul_nonneg (length_nonneg p) hlpos.le) (by rw [hcr]; exact hcp.le)).1 e
        exact this
      rw [hprod, hcr]
      unfold scale
      have : δ.length + 1 / 10 ^ 15 ≠ 0 := by positivity
      field_simp
  · -- a vertex is closest
    have hvert : ∀ w : Vec ℝ, v0.ab.lerpT v1.ab (v0.ab.closestT v1.ab) = w → w.dot w ≤ v0.ab.dot w → w.dot w ≤ v1.ab.dot w →
        Apart s1 s2 (v0.closestPoints v1) ∨ w.length = 0 := by
      intro w hw g0 g1
      rw [hw] at hd hn hdist
      rcases eq_or_lt_of_le (length_nonneg w) with h | hwpos
      · exact Or.inr h.symm
      left
      have hax : gjkAxis v0 v1 = w.neg := by
        simp only [gjkAxis, hlit]; rw [if_neg hnin, hw]
      have hxw : ∀ a b, s1.core a → s2.core b → w.dot w ≤ w.dot (b.sub a) := by
        intro a b ha hb
        have := hmax a b ha hb
        rw [hax] at this
        have e0 : ∀ u : Vec ℝ, u.dot w.neg = - u.dot w := by intro u; simp only [Vec.dot, Vec.neg]; ring
        rw [dot_comm, e0, e0, e0] at this
        rw [dot_comm w (b.sub a)]
        rcases le_max_iff.1 this with h | h <;> linarith
      have hww := length_sq w
      refine ⟨?_, ?_, ?_, ?_, ?_⟩
      rotate_left 3
      · intro a b ha hb
        rw [hcd, hn, hw]
        have e : ∀ u, (w.mult (scale w)).dot u = scale w * w.dot u := by intro u; simp only [Vec.dot, Vec.mult]; ring
        rw [e, e]
        exact mul_le_mul_of_nonneg_left (hxw a b ha hb) (scale_pos w).le
      · refine ⟨1 / scale w, one_div_pos.2 (scale_pos w), ?_⟩
        rw [hcd, hn, hw]
        have := (scale_pos w).ne'
        ext <;> simp only [Vec.mult] <;> field_simp
      · intro a b ha hb
        rw [hd, distance_length]
        have h2 := length_sq (b.sub a)
        have h3 : 0 ≤ (b.sub a).dot (b.sub a) - 2 * w.dot (b.sub a) + w.dot w := by
          have : (b.sub a).dot (b.sub a) - 2 * w.dot (b.sub a) + w.dot w =
              ((b.sub a).x - w.x) ^ 2 + ((b.sub a).y - w.y) ^ 2 := by simp only [Vec.dot]; ring
          rw [this]; positivity
        have h4 := hxw a b ha hb
        exact (mul_self_le_mul_self_iff (length_nonneg w) (length_nonneg _)).2 (by rw [hww, h2]; linarith)
      · intro a b ha hb
        rw [hn]
        have e : (w.mult (scale w)).dot (b.sub a) = scale w * w.dot (b.sub a) := by simp only [Vec.dot, Vec.mult]; ring
        rw [e]
        refine mul_pos (scale_pos w) (lt_of_lt_of_le ?_ (hxw a b ha hb))
        rw [← hww]; positivity
      · left; rw [hdist, hd]
    have hv : ∃ w, v0.ab.lerpT v1.ab (v0.ab.closestT v1.ab) = w ∧ w.dot w ≤ v0.ab.dot w ∧ w.dot w ≤ v1.ab.dot w := by
      have hne : (v1.ab.sub v0.ab).lengthSq ≠ 0 := by
        intro h
        have := lengthSq_eq_zero h
        have e : v0.ab.cross v1.ab = v0.ab.cross (v1.ab.sub v0.ab) := by simp only [Vec.cross, Vec.sub]; ring
        rw [e, this] at hcp
        simp [Vec.cross] at hcp
      rcases closestT_cases v0.ab v1.ab hne with ⟨h1, h2, _⟩ | ⟨h1, h2⟩ | ⟨h1, h2⟩
      · exact absurd ⟨h1, h2⟩ hnin
      · refine ⟨v1.ab, ?_, h2, le_refl _⟩
        rw [h1]; ext <;> simp only [Vec.lerpT, Vec.add, Vec.mult, lit_real] <;> push_cast <;> ring
      · refine ⟨v0.ab, ?_, le_refl _, by rw [dot_comm v1.ab]; exact h2⟩
        rw [h1]; ext <;> simp only [Vec.lerpT, Vec.add, Vec.mult, lit_real] <;> push_cast <;> ring
    obtain ⟨w, e, g0, g1⟩ := hv
    refine ⟨by rw [hd]; exact length_nonneg _, fun hpos => ?_⟩
    rcases hvert w e g0 g1 with h | h
    · exact h
    · rw [hd, e, h] at hpos; exact absurd hpos (lt_irrefl _)

theorem epa_sound {s1 s2 : Cls ℝ} (hs1 : s1.Fine) (hs2 : s2.Fine) (hq : ∃ q, s1.core q ∧ s2.core q) :
    ∀ (left : Nat) (hull : List (Mink ℝ)), hull ≠ [] → (∀ m ∈ hull, m.Ok s1 s2) → ∀ c st,
      epaRecurse s1 s2 left hull = some (c, st) →
      s1.core c.a ∧ s2.core c.b ∧ st ≠ .axis ∧ (st = .edge → Overlap s1 s2 c) := by
  have hstep : ∀ (v0 v1 : Mink ℝ), v0.Ok s1 s2 → v1.Ok s1 s2 →
      ¬ (¬ ((supportM s1 s2 (v1.ab.sub v0.ab).perp).id = v0.id ∨ (supportM s1 s2 (v1.ab.sub v0.ab).perp).id = v1.id) ∧
          v0.ab.pointGreater v1.ab (supportM s1 s2 (v1.ab.sub v0.ab).perp).ab) →
      Overlap s1 s2 (v0.closestPoints v1) := by
    intro v0 v1 h0 h1 hstop
    obtain ⟨p, hp⟩ : ∃ p, p = supportM s1 s2 (v1.ab.sub v0.ab).perp := ⟨_, rfl⟩
    have hpok : p.Ok s1 s2 := by rw [hp]; exact supportM_ok hs1 hs2 _
    rw [← hp] at hstop
    have hple : (v1.ab.sub v0.ab).perp.dot p.ab ≤ (v1.ab.sub v0.ab).perp.dot v0.ab := by
      by_cases hid : p.id = v0.id ∨ p.id = v1.id
      · rcases hid with h | h
        · rw [hpok.eq_of_id hs1 hs2 h0 h]
        · rw [hpok.eq_of_id hs1 hs2 h1 h]
          apply le_of_eq
          simp only [Vec.dot, Vec.perp, Vec.sub]; ring
      · by_contra hc
        push Not at hc
        exact hstop ⟨hid, (pointGreater_iff _ _ _).2 hc⟩
    have hsm := (small_axis (h0.bounded hs1 hs2) (h1.bounded hs1 hs2)).1
    have hsep : ∀ a b, s1.core a → s2.core b →
        scale (v1.ab.sub v0.ab) * v0.ab.cross v1.ab ≤ (v1.ab.sub v0.ab).rperp.normalize.dot (b.sub a) := by
      intro a b ha hb
      apply edge_sound
      refine le_trans ?_ hple
      rw [hp]; exact supportM_max hs1 hs2 hsm ha hb
    obtain ⟨q, q1, q2⟩ := hq
    have hzero : scale (v1.ab.sub v0.ab) * v0.ab.cross v1.ab ≤ 0 := by
      have := hsep q q q1 q2
      have e : ∀ n : Vec ℝ, n.dot (q.sub q) = 0 := by intro n; simp only [Vec.dot, Vec.sub]; ring
      rwa [e] at this
    have hcr : v0.ab.cross v1.ab ≤ 0 := by
      by_contra hc
      push Not at hc
      have := mul_pos (scale_pos (v1.ab.sub v0.ab)) hc
      linarith
    obtain ⟨-, -, hc⟩ := closestPoints_cases v0 v1
    obtain ⟨-, -, hcd⟩ := closestPoints_core h0 h1
    rcases hc with ⟨hd, hn, _⟩ | ⟨hcp, _⟩
    · refine ⟨⟨q, q1, q2⟩, by rw [hd]; exact hzero, fun a b ha hb => by rw [hd, hn]; exact hsep a b ha hb, ?_⟩
      rw [hcd, hn, hd, edge_dist]
    · linarith
  have hreb : ∀ (p : Mink ℝ), p.Ok s1 s2 → ∀ (l : List (Mink ℝ)) (h0 : Vec ℝ), (∀ m ∈ l, m.Ok s1 s2) →
      ∀ m ∈ rebuild p h0 l, m.Ok s1 s2 := by
    intro p hp l
    induction l with
    | nil => intro h0 _ m hm; cases hm
    | cons h1 rest ih =>
      intro h0 hl m hm
      have hm' : ∃ h2 : Vec ℝ, m ∈ (if h0.pointGreater h2 h1.ab then h1 :: rebuild p h1.ab rest else rebuild p h0 rest) :=
        ⟨_, hm⟩
      obtain ⟨h2, hm⟩ := hm'
      split at hm
      · rcases List.mem_cons.1 hm with rfl | hm
        · exact hl _ (by simp)
        · exact ih _ (fun m hm => hl m (by simp [hm])) m hm
      · exact ih _ (fun m hm => hl m (by simp [hm])) m hm
  intro left
  induction left with
  | zero =>
    intro hull hne hok c st h
    obtain ⟨v0, v1, mini, m0, m1, e⟩ := epaRecurse_step s1 s2 0 hull hne
    rw [e] at h
    obtain ⟨c1, c2, _⟩ := closestPoints_core (hok _ m0) (hok _ m1)
    split at h
    · simp only [Option.some.injEq, Prod.mk.injEq] at h
      obtain ⟨rfl, rfl⟩ := h
      exact ⟨c1, c2, by simp, by simp⟩
    · rename_i hstop
      simp only [Option.some.injEq, Prod.mk.injEq] at h
      obtain ⟨rfl, rfl⟩ := h
      exact ⟨c1, c2, by simp, fun _ => hstep _ _ (hok _ m0) (hok _ m1) hstop⟩
  | succ left ih =>
    intro hull hne hok c st h
    obtain ⟨v0, v1, mini, m0, m1, e⟩ := epaRecurse_step s1 s2 (left + 1) hull hne
    rw [e] at h
    obtain ⟨c1, c2, _⟩ := closestPoints_core (hok _ m0) (hok _ m1)
    split at h
    · refine ih _ (by simp) ?_ c st h
      intro m hm
      have hp := supportM_ok hs1 hs2 (v1.ab.sub v0.ab).perp
      rcases List.mem_cons.1 hm with rfl | hm
      · exact hp
      · refine hreb _ hp _ _ ?_ m hm
        intro m hm
        exact hok m (List.mem_rotate.1 hm)
    · rename_i hstop
      simp only [Option.some.injEq, Prod.mk.injEq] at h
      obtain ⟨rfl, rfl⟩ := h
      exact ⟨c1, c2, by simp, fun _ => hstep _ _ (hok _ m0) (hok _ m1) hstop⟩

/-- The triangle that EPA starts from contains the origin: the cores have a common point. -/
theorem triangle_common {s1 s2 : Cls ℝ} {v0 p v1 : Mink ℝ} (h0 : v0.Ok s1 s2) (hp : p.Ok s1 s2) (h1 : v1.Ok s1 s2)
    (c1 : 0 ≤ v0.ab.cross v1.ab) (c2 : v0.ab.cross p.ab < 0) (c3 : p.ab.cross v1.ab < 0) : ∃ q, s1.core q ∧ s2.core q := by
  obtain ⟨α, hα⟩ : ∃ α, α = - p.ab.cross v1.ab := ⟨_, rfl⟩
  obtain ⟨β, hβ⟩ : ∃ β, β = v0.ab.cross v1.ab := ⟨_, rfl⟩
  obtain ⟨γ, hγ⟩ : ∃ γ, γ = - v0.ab.cross p.ab := ⟨_, rfl⟩
  have hαp : 0 < α := by rw [hα]; linarith
  have hβp : 0 ≤ β := by rw [hβ]; exact c1
  have hγp : 0 < γ := by rw [hγ]; linarith
  have hS : 0 < α + β + γ := by linarith
  -- the weighted mean of three points of a core
  have mean : ∀ (s : Cls ℝ) (x y z : Vec ℝ), s.core x → s.core y → s.core z →
      s.core ⟨(α * x.x + β * y.x + γ * z.x) / (α + β + γ), (α * x.y + β * y.y + γ * z.y) / (α + β + γ)⟩ := by
    intro s x y z hx hy hz
    have hαβ : 0 < α + β := by linarith
    refine Hull.mix (Hull.mix hx hy ⟨β / (α + β), by positivity, by rw [div_le_one hαβ]; linarith, rfl⟩) hz
      ⟨γ / (α + β + γ), by positivity, by rw [div_le_one hS]; linarith, ?_⟩
    have e1 : α + β ≠ 0 := hαβ.ne'
    have e2 : α + β + γ ≠ 0 := hS.ne'
    ext
    · simp only; field_simp; ring
    · simp only; field_simp; ring
  have zx : α * v0.ab.x + β * p.ab.x + γ * v1.ab.x = 0 := by
    rw [hα, hβ, hγ]; simp only [Vec.cross]; ring
  have zy : α * v0.ab.y + β * p.ab.y + γ * v1.ab.y = 0 := by
    rw [hα, hβ, hγ]; simp only [Vec.cross]; ring
  rw [h0.ab, hp.ab, h1.ab] at zx zy
  simp only [Vec.sub] at zx zy
  refine ⟨_, mean s1 v0.a p.a v1.a (Hull.pt h0.mem.1) (Hull.pt hp.mem.1) (Hull.pt h1.mem.1), ?_⟩
  have := mean s2 v0.b p.b v1.b (Hull.pt h0.mem.2) (Hull.pt hp.mem.2) (Hull.pt h1.mem.2)
  have ex : α * v0.b.x + β * p.b.x + γ * v1.b.x = α * v0.a.x + β * p.a.x + γ * v1.a.x := by linarith
  have ey : α * v0.b.y + β * p.b.y + γ * v1.b.y = α * v0.a.y + β * p.a.y + γ * v1.a.y := by linarith
  rwa [ex, ey] at this

theorem gjkRecurse_sound {s1 s2 : Cls ℝ} (hs1 : s1.Fine) (hs2 : s2.Fine) : ∀ (fuel left : Nat) (v0 v1 : Mink ℝ),
    v0.Ok s1 s2 → v1.Ok s1 s2 → ∀ c st, gjkRecurse s1 s2 fuel left v0 v1 = some (c, st) →
      s1.core c.a ∧ s2.core c.b ∧ (st = .axis → 0 ≤ c.d ∧ (0 < c.d → Apart s1 s2 c)) ∧ (st = .edge → Overlap s1 s2 c) := by
  intro fuel
  induction fuel with
  | zero => intro left v0 v1 _ _ c st h; cases h
  | succ fuel ih =>
    intro left v0 v1 h0 h1 c st h
    obtain ⟨c1, c2, _⟩ := closestPoints_core h0 h1
    cases left with
    | zero =>
      simp only [gjkRecurse, Option.some.injEq, Prod.mk.injEq] at h
      obtain ⟨rfl, rfl⟩ := h
      exact ⟨c1, c2, by simp, by simp⟩
    | succ left =>
      simp only [gjkRecurse] at h
      have hp := supportM_ok hs1 hs2 (gjkAxis v0 v1)
      split at h
      · exact ih _ _ _ h1 h0 c st h
      · rename_i hflip
        split at h
        · rename_i hepa
          have hcross : 0 ≤ v0.ab.cross v1.ab := by
            by_contra hc
            push Not at hc
            exact hflip ((pointGreater_origin _ _).2 hc)
          have hq := triangle_common h0 hp h1 hcross ((pointGreater_origin _ _).1 hepa.1) ((pointGreater_origin _ _).1 hepa.2)
          obtain ⟨r1, r2, r3, r4⟩ := epa_sound hs1 hs2 hq 29 _ (by simp) (by
            intro m hm
            simp only [List.mem_cons, List.not_mem_nil, or_false] at hm
            rcases hm with rfl | rfl | rfl
            · exact h0
            · exact hp
            · exact h1) c st h
          exact ⟨r1, r2, fun h => absurd h r3, r4⟩
        · split at h
          · rename_i hcheck
            simp only [Option.some.injEq, Prod.mk.injEq] at h
            obtain ⟨rfl, rfl⟩ := h
            exact ⟨c1, c2, fun _ => axis_sound hs1 hs2 h0 h1 (by simpa using hflip) hcheck, by simp⟩
          · split at h
            · exact ih _ _ _ h0 hp c st h
            · exact ih _ _ _ hp h1 c st h

end Coll
end CP
