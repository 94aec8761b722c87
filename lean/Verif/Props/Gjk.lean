import Verif.Proofs.Gjk

/-! # C33: GJK and EPA terminate, and what their answer is worth -/

namespace CP
open GoFloat Coll

/-- The answer has been reached after at most 62 calls, for every shape, cached id and result of the comparisons (only the
signs of the floating point operations are used). -/
theorem C33_terminates {F : Type} [GoFloat F] [FloatSigns F] (s1 s2 : Shp F) (id : Nat) : ∃ r, gjk s1 s2 id = some r :=
  gjkRecurse_some _ _ _ _ _ _ (Or.inl (by norm_num))

/-- The closest points belong to the shapes. -/
theorem C33_points {s1 s2 : Shp ℝ} (h1 : s1.cls.Fine) (h2 : s2.cls.Fine) {id : Nat} {c : Closest ℝ} {st : Stop}
    (h : gjk s1 s2 id = some (c, st)) : s1.cls.core c.a ∧ s2.cls.core c.b := by
  obtain ⟨ok1, ok2⟩ := gjkStart_ok h1 h2 id
  obtain ⟨a, b, _⟩ := gjkRecurse_sound h1 h2 62 30 _ _ ok1 ok2 c st h
  exact ⟨a, b⟩

/-- The answer is right if the search ended regularly, except for `d = 0` on the axis check. -/
theorem C33_sound {s1 s2 : Shp ℝ} (h1 : s1.cls.Fine) (h2 : s2.cls.Fine) {id : Nat} {c : Closest ℝ} {st : Stop}
    (h : gjk s1 s2 id = some (c, st)) (hst : st ≠ .limit) :
    (0 < c.d ∧ Apart s1.cls s2.cls c) ∨ (c.d ≤ 0 ∧ Overlap s1.cls s2.cls c) ∨ (c.d = 0 ∧ st = .axis) := by
  obtain ⟨ok1, ok2⟩ := gjkStart_ok h1 h2 id
  obtain ⟨-, -, ha, he⟩ := gjkRecurse_sound h1 h2 62 30 _ _ ok1 ok2 c st h
  cases st with
  | axis =>
    obtain ⟨h0, h1⟩ := ha rfl
    rcases lt_or_eq_of_le h0 with h | h
    · exact Or.inl ⟨h, h1 h⟩
    · exact Or.inr (Or.inr ⟨h.symm, rfl⟩)
  | edge => exact Or.inr (Or.inl ⟨(he rfl).nonpos, he rfl⟩)
  | limit => exact absurd rfl hst

/-- No collision is missed: the reported distance is never more than the distance of any two points of the shapes. In
particular it is at most the sum of the radii if the shapes touch. -/
theorem C33_no_miss {s1 s2 : Shp ℝ} (h1 : s1.cls.Fine) (h2 : s2.cls.Fine) {id : Nat} {c : Closest ℝ} {st : Stop}
    (h : gjk s1 s2 id = some (c, st)) (hst : st ≠ .limit) :
    (∀ a b, s1.cls.core a → s2.cls.core b → c.d ≤ a.distance b) ∧
    ((∃ p, s1.cls.pts p ∧ s2.cls.pts p) → c.d ≤ s1.cls.radius + s2.cls.radius) := by
  have key : ∀ a b, s1.cls.core a → s2.cls.core b → c.d ≤ a.distance b := by
    intro a b ha hb
    rcases C33_sound h1 h2 h hst with ⟨_, hh⟩ | ⟨hd, _⟩ | ⟨hd, _⟩
    · exact hh.le a b ha hb
    · exact hd.trans (Vec.distance_nonneg a b)
    · rw [hd]; exact Vec.distance_nonneg a b
  refine ⟨key, ?_⟩
  rintro ⟨p, ⟨a, ha, hpa⟩, b, hb, hpb⟩
  have := Vec.distance_triangle a p b
  rw [Vec.distance_comm a p] at this
  linarith [key a b ha hb]

/-- Shapes that are apart are reported apart if `d ≠ 0`. -/
theorem C33_no_ghost {s1 s2 : Shp ℝ} (h1 : s1.cls.Fine) (h2 : s2.cls.Fine) {id : Nat} {c : Closest ℝ} {st : Stop}
    (h : gjk s1 s2 id = some (c, st)) (hst : st ≠ .limit) (hd : c.d ≠ 0)
    (hap : ∀ q, s1.cls.core q → ¬ s2.cls.core q) : 0 < c.d ∧ Apart s1.cls s2.cls c := by
  rcases C33_sound h1 h2 h hst with hh | ⟨_, hh⟩ | ⟨h0, _⟩
  · exact hh
  · obtain ⟨q, q1, q2⟩ := hh.common
    exact absurd q2 (hap q q1)
  · exact absurd h0 hd

/-! ### The exception: `d = 0` for shapes far apart -/

/-- A diamond of diagonal 2 around the origin. -/
noncomputable def diamond : Poly ℝ := ⟨0, [⟨⟨1, 0⟩, ⟨1, -1⟩⟩, ⟨⟨0, 1⟩, ⟨1, 1⟩⟩, ⟨⟨-1, 0⟩, ⟨-1, 1⟩⟩, ⟨⟨0, -1⟩, ⟨-1, -1⟩⟩], []⟩
noncomputable def diamondShp : Shp ℝ := ⟨.poly diamond, ⟨-1, -1, 1, 1⟩, ⟨1, 0⟩, 2#64⟩
/-- A circle beside it. -/
noncomputable def nearCircle : Circle ℝ := ⟨⟨0, 0⟩, ⟨7 / 4, 3 / 4⟩, 1⟩
noncomputable def nearShp : Shp ℝ := ⟨.circle nearCircle, ⟨3 / 4, -1 / 4, 11 / 4, 7 / 4⟩, ⟨1, 0⟩, 1#64⟩

theorem neg_maxFloat_lt {x : ℝ} (h : -10 < x) : -(maxFloat : ℝ) < x := by
  have h1 : (2 : ℝ) ^ 1024 = 2 ^ 971 * 2 ^ 53 := by rw [← pow_add]
  have h3 : (2 : ℝ) ^ 53 = 9007199254740992 := by norm_num
  have h2 : (1 : ℝ) ≤ 2 ^ 971 := one_le_pow₀ (by norm_num)
  rw [maxFloat_real, h1, h3]
  generalize (2 : ℝ) ^ 971 = z at h2
  linarith

theorem sif_take {n : Vec ℝ} {pl : Plane ℝ} {rest : List (Plane ℝ)} {i index : Nat} {mx : ℝ} (h : mx < pl.v0.dot n) :
    supportIndexFrom n (pl :: rest) i mx index = supportIndexFrom n rest (i + 1) (pl.v0.dot n) i := by
  simp only [supportIndexFrom, if_pos h]
theorem sif_skip {n : Vec ℝ} {pl : Plane ℝ} {rest : List (Plane ℝ)} {i index : Nat} {mx : ℝ} (h : ¬ mx < pl.v0.dot n) :
    supportIndexFrom n (pl :: rest) i mx index = supportIndexFrom n rest (i + 1) mx index := by
  simp only [supportIndexFrom, if_neg h]

theorem diamond_support (n : Vec ℝ) (hn : |n.x| < 10 ∧ |n.y| < 10) :
    (0 < n.x + n.y → 0 ≤ n.x - n.y → supportIndex diamond.dst n = 0) ∧
    (n.x < n.y → 0 < n.x + n.y → supportIndex diamond.dst n = 1) ∧
    (n.y < n.x → n.x + n.y < 0 → supportIndex diamond.dst n = 3) := by
  obtain ⟨h1, h2⟩ := abs_lt.1 hn.1
  obtain ⟨h3, h4⟩ := abs_lt.1 hn.2
  have hm : -(maxFloat : ℝ) < 1 * n.x + 0 * n.y := neg_maxFloat_lt (by linarith)
  have e : diamond.dst = [⟨⟨1, 0⟩, ⟨1, -1⟩⟩, ⟨⟨0, 1⟩, ⟨1, 1⟩⟩, ⟨⟨-1, 0⟩, ⟨-1, 1⟩⟩, ⟨⟨0, -1⟩, ⟨-1, -1⟩⟩] := rfl
  refine ⟨fun a b => ?_, fun a b => ?_, fun a b => ?_⟩
  · rw [supportIndex, e, sif_take, sif_skip, sif_skip, sif_skip]; rfl
    all_goals simp only [Vec.dot]
    all_goals first | exact hm | linarith
  · rw [supportIndex, e, sif_take, sif_take, sif_skip, sif_skip]; rfl
    all_goals simp only [Vec.dot]
    all_goals first | exact hm | linarith
  · by_cases c : 0 ≤ n.x
    · rw [supportIndex, e, sif_take, sif_skip, sif_skip, sif_take]; rfl
      all_goals simp only [Vec.dot]
      all_goals first | exact hm | linarith
    · rw [supportIndex, e, sif_take, sif_skip, sif_take, sif_take]; rfl
      all_goals simp only [Vec.dot]
      all_goals first | exact hm | linarith

/-- The two shapes as GJK sees them. -/
theorem near_support (n : Vec ℝ) : supportM nearShp.cls diamondShp.cls n =
    Mink.new ⟨⟨7 / 4, 3 / 4⟩, 0⟩ ⟨vert diamond.dst (supportIndex diamond.dst n), supportIndex diamond.dst n⟩ := rfl

theorem near_start : gjkStart nearShp diamondShp 0 =
    (⟨⟨7 / 4, 3 / 4⟩, ⟨0, 1⟩, ⟨-7 / 4, 1 / 4⟩, 1⟩, ⟨⟨7 / 4, 3 / 4⟩, ⟨0, -1⟩, ⟨-7 / 4, -7 / 4⟩, 3⟩) := by
  have e1 : (nearShp.bb.center.sub diamondShp.bb.center).perp = (⟨-3 / 4, 7 / 4⟩ : Vec ℝ) := by
    ext <;> norm_num [nearShp, diamondShp, BB.center, Vec.lerp, Vec.add, Vec.mult, Vec.sub, Vec.perp]
  have i1 := (diamond_support ⟨-3 / 4, 7 / 4⟩ (by norm_num [abs_lt])).2.1 (by norm_num) (by norm_num)
  have i2 := (diamond_support ⟨3 / 4, -7 / 4⟩ (by norm_num [abs_lt])).2.2 (by norm_num) (by norm_num)
  have e2 : (⟨-3 / 4, 7 / 4⟩ : Vec ℝ).neg = ⟨3 / 4, -7 / 4⟩ := by ext <;> norm_num [Vec.neg]
  simp only [gjkStart, ne_eq, not_true_eq_false, if_false, e1, e2, near_support, i1, i2]
  norm_num [Mink.new, vert, diamond, Vec.sub]

/-- One step of GJK towards `v1`, and the end of GJK on the axis check. -/
theorem gjk_right {s1 s2 : Cls ℝ} {fuel left : Nat} {v0 v1 p : Mink ℝ} {n : Vec ℝ} (h1 : v1.ab.pointGreater v0.ab ⟨0, 0⟩ = false)
    (hn : gjkAxis v0 v1 = n) (hp : supportM s1 s2 n = p) (h2 : p.ab.pointGreater v0.ab ⟨0, 0⟩ = false)
    (h3 : v0.ab.checkAxis v1.ab p.ab n = false) (h4 : ¬ v0.ab.closestDist p.ab < p.ab.closestDist v1.ab) :
    gjkRecurse s1 s2 (fuel + 1) (left + 1) v0 v1 = gjkRecurse s1 s2 fuel left p v1 := by
  rw [gjkRecurse.eq_def]
  simp only [h1, hn, hp, h2, h3, Bool.false_eq_true, if_false, false_and]
  rw [if_neg h4]

theorem gjk_axis {s1 s2 : Cls ℝ} {fuel left : Nat} {v0 v1 p : Mink ℝ} {n : Vec ℝ} (h1 : v1.ab.pointGreater v0.ab ⟨0, 0⟩ = false)
    (hn : gjkAxis v0 v1 = n) (hp : supportM s1 s2 n = p) (h2 : p.ab.pointGreater v0.ab ⟨0, 0⟩ = false)
    (h3 : v0.ab.checkAxis v1.ab p.ab n = true) :
    gjkRecurse s1 s2 (fuel + 1) (left + 1) v0 v1 = some (v0.closestPoints v1, .axis) := by
  rw [gjkRecurse.eq_def]
  simp only [h1, hn, hp, h2, h3, Bool.false_eq_true, if_false, false_and, if_true]

theorem near_gjk : gjk nearShp diamondShp 0 = some (Mink.closestPoints (F := ℝ) ⟨⟨7 / 4, 3 / 4⟩, ⟨1, 0⟩, ⟨-3 / 4, -3 / 4⟩, 0⟩
    ⟨⟨7 / 4, 3 / 4⟩, ⟨0, -1⟩, ⟨-7 / 4, -7 / 4⟩, 3⟩, .axis) := by
  unfold gjk
  rw [near_start]
  simp only
  have i1 := (diamond_support ⟨2, 0⟩ (by norm_num [abs_lt])).1 (by norm_num) (by norm_num)
  have i2 := (diamond_support ⟨3 / 4, 3 / 4⟩ (by norm_num [abs_lt])).1 (by norm_num) (by norm_num)
  have t1 : (⟨-7 / 4, 1 / 4⟩ : Vec ℝ).closestT ⟨-7 / 4, -7 / 4⟩ = -3 / 4 := by
    norm_num [Vec.closestT, Vec.sub, Vec.lengthSq, Vec.dot, Vec.add, clamp]
  have t2 : (⟨-3 / 4, -3 / 4⟩ : Vec ℝ).closestT ⟨-7 / 4, -7 / 4⟩ = -1 := by
    norm_num [Vec.closestT, Vec.sub, Vec.lengthSq, Vec.dot, Vec.add, clamp]
  have t3 : (⟨-7 / 4, 1 / 4⟩ : Vec ℝ).closestT ⟨-3 / 4, -3 / 4⟩ = 1 := by
    norm_num [Vec.closestT, Vec.sub, Vec.lengthSq, Vec.dot, Vec.add, clamp]
  rw [gjk_right (n := ⟨2, 0⟩) (p := ⟨⟨7 / 4, 3 / 4⟩, ⟨1, 0⟩, ⟨-3 / 4, -3 / 4⟩, 0⟩), gjk_axis (n := ⟨3 / 4, 3 / 4⟩)
    (p := ⟨⟨7 / 4, 3 / 4⟩, ⟨1, 0⟩, ⟨-3 / 4, -3 / 4⟩, 0⟩)]
  · norm_num [Vec.pointGreater]
  · simp only [gjkAxis, t2]; norm_num [ Vec.lerpT, Vec.add, Vec.mult, Vec.neg]
  · rw [near_support, i2]; norm_num [Mink.new, vert, diamond, Vec.sub]
  · norm_num [Vec.pointGreater]
  · norm_num [Vec.checkAxis, Vec.dot]
  · norm_num [Vec.pointGreater]
  · simp only [gjkAxis, t1]; norm_num [ Vec.sub, Vec.perp]
  · rw [near_support, i1]; norm_num [Mink.new, vert, diamond, Vec.sub]
  · norm_num [Vec.pointGreater]
  · norm_num [Vec.checkAxis, Vec.dot]
  · simp only [Vec.closestDist, t2, t3]; norm_num [ Vec.lerpT, Vec.add, Vec.mult, Vec.lengthSq, Vec.dot]

theorem diamond_left {q : Vec ℝ} (h : diamondShp.cls.core q) : q.x + q.y ≤ 1 := by
  have := core_dot_le (n := ⟨1, 1⟩) (c := 1) (s := diamondShp.cls) (by
    intro v hv
    simp only [diamondShp, diamond, Cls.verts, List.map_cons, List.map_nil, List.mem_cons, List.not_mem_nil, or_false] at hv
    rcases hv with rfl | rfl | rfl | rfl <;> norm_num [Vec.dot]) h
  simp only [Vec.dot, one_mul] at this
  exact this

theorem near_core {p : Vec ℝ} (h : nearShp.cls.core p) : p = ⟨7 / 4, 3 / 4⟩ := by
  refine Hull.least (T := fun p => p = ⟨7 / 4, 3 / 4⟩) ?_ ?_ h
  · rintro p q x rfl rfl ⟨s, _, _, rfl⟩; ext <;> simp
  · intro p hp
    simpa [nearShp, nearCircle, Cls.verts] using hp

/-- **The axis check can report `d = 0` for shapes that are more than their radii apart**: here the distance of the centre of
the circle from the diamond is more than 1, the radius of the circle. The boxes overlap, so the pair does reach GJK. (Two
vertices of the difference that lie on a line through the origin: `ClosestPoints` takes the edge's distance, 0.) -/
theorem C33_collinear_violated : ∃ s1 s2 : Shp ℝ, s1.cls.Fine ∧ s2.cls.Fine ∧ s1.bb.intersects s2.bb = true ∧
    TightBox s1.cls.pts s1.bb ∧ TightBox s2.cls.pts s2.bb ∧
    ∃ c, gjk s1 s2 0 = some (c, .axis) ∧ c.d = 0 ∧
      ∀ p q, s1.cls.core p → s2.cls.core q → s1.cls.radius + s2.cls.radius < p.distance q := by
  refine ⟨nearShp, diamondShp, ?_, ?_, ?_, ?_, ?_, _, near_gjk, ?_, ?_⟩
  · have e : (2 : ℝ) ≤ 2 ^ 500 := by
      calc (2 : ℝ) = 2 ^ 1 := by norm_num
        _ ≤ 2 ^ 500 := pow_le_pow_right₀ (by norm_num) (by norm_num)
    refine ⟨by simp [nearShp, Cls.verts], by simp [nearShp, Cls.verts], ?_⟩
    intro v hv
    simp only [nearShp, nearCircle, Cls.verts, List.mem_singleton] at hv
    subst hv
    constructor <;> refine le_trans ?_ e <;> norm_num [abs_le]
  · have e : (2 : ℝ) ≤ 2 ^ 500 := by
      calc (2 : ℝ) = 2 ^ 1 := by norm_num
        _ ≤ 2 ^ 500 := pow_le_pow_right₀ (by norm_num) (by norm_num)
    refine ⟨by simp [diamondShp, diamond, Cls.verts], by simp [diamondShp, diamond, Cls.verts], ?_⟩
    intro v hv
    simp only [diamondShp, diamond, Cls.verts, List.map_cons, List.map_nil, List.mem_cons, List.not_mem_nil, or_false] at hv
    rcases hv with rfl | rfl | rfl | rfl <;> constructor <;> refine le_trans ?_ e <;> norm_num [abs_le]
  · norm_num [nearShp, diamondShp, BB.intersects]
  · have hc : nearShp.cls.core ⟨7 / 4, 3 / 4⟩ := Hull.pt (by simp [nearShp, nearCircle, Cls.verts])
    have hd : ∀ p : Vec ℝ, p.distance ⟨7 / 4, 3 / 4⟩ ≤ 1 → nearShp.cls.pts p := fun p hp => ⟨_, hc, hp⟩
    refine ⟨?_, ⟨⟨3 / 4, 3 / 4⟩, hd _ ?_, rfl⟩, ⟨⟨11 / 4, 3 / 4⟩, hd _ ?_, rfl⟩, ⟨⟨7 / 4, -1 / 4⟩, hd _ ?_, rfl⟩,
      ⟨⟨7 / 4, 7 / 4⟩, hd _ ?_, rfl⟩⟩
    · rintro p ⟨q, hq, hpq⟩
      rw [near_core hq] at hpq
      have hx := (abs_le.1 ((Vec.abs_x_le _ _).trans hpq))
      have hy := (abs_le.1 ((Vec.abs_y_le _ _).trans hpq))
      simp only [nearShp, Cls.radius, nearCircle] at hx hy ⊢
      refine ⟨?_, ?_, ?_, ?_⟩ <;> simp only <;> linarith [hx.1, hx.2, hy.1, hy.2]
    all_goals rw [Vec.distance_le_iff (by norm_num)]; norm_num
  · have hv : ∀ p ∈ diamondShp.cls.verts, diamondShp.cls.pts p := fun p hp => ⟨p, Hull.pt hp, by
      rw [Vec.distance_self]; simp [diamondShp, diamond, Cls.radius]⟩
    refine ⟨?_, ⟨⟨-1, 0⟩, hv _ ?_, rfl⟩, ⟨⟨1, 0⟩, hv _ ?_, rfl⟩, ⟨⟨0, -1⟩, hv _ ?_, rfl⟩, ⟨⟨0, 1⟩, hv _ ?_, rfl⟩⟩
    · rintro p ⟨q, hq, hpq⟩
      have e : p = q := Vec.distance_eq_zero.1 (le_antisymm hpq (Vec.distance_nonneg _ _))
      subst e
      have hdot : ∀ n : Vec ℝ, |n.x| ≤ 1 → |n.y| ≤ 1 → n.dot p ≤ 1 := fun n hx hy =>
        core_dot_le (by
          intro v hv
          obtain ⟨x1, x2⟩ := abs_le.1 hx
          obtain ⟨y1, y2⟩ := abs_le.1 hy
          simp only [diamondShp, diamond, Cls.verts, List.map_cons, List.map_nil, List.mem_cons, List.not_mem_nil,
            or_false] at hv
          rcases hv with rfl | rfl | rfl | rfl <;> simp only [Vec.dot] <;> linarith) hq
      have a1 := hdot ⟨1, 0⟩ (by norm_num) (by norm_num)
      have a2 := hdot ⟨-1, 0⟩ (by norm_num) (by norm_num)
      have a3 := hdot ⟨0, 1⟩ (by norm_num) (by norm_num)
      have a4 := hdot ⟨0, -1⟩ (by norm_num) (by norm_num)
      simp only [Vec.dot] at a1 a2 a3 a4
      refine ⟨?_, ?_, ?_, ?_⟩ <;> simp only [diamondShp] <;> linarith
    all_goals simp [diamondShp, diamond, Cls.verts]
  · obtain ⟨-, -, hc⟩ := closestPoints_cases ⟨⟨7 / 4, 3 / 4⟩, ⟨1, 0⟩, ⟨-3 / 4, -3 / 4⟩, 0⟩
      ⟨⟨7 / 4, 3 / 4⟩, ⟨0, -1⟩, ⟨-7 / 4, -7 / 4⟩, 3⟩
    rcases hc with ⟨hd, _⟩ | ⟨hd, _⟩
    · rw [hd]; norm_num [Vec.cross]
    · norm_num [Vec.cross] at hd
  · intro p q hp hq
    rw [near_core hp]
    have hq' := diamond_left hq
    have : ¬ Vec.distance ⟨7 / 4, 3 / 4⟩ q ≤ 1 := by
      rw [Vec.distance_le_iff (by norm_num)]
      simp only
      nlinarith [sq_nonneg (q.x - q.y - 1)]
    simp only [nearShp, diamondShp, nearCircle, diamond, Cls.radius]
    push Not at this
    linarith

/-! ### The hypotheses can be met: a triangle with a circle right of it, and with a circle inside -/

noncomputable def tri (r : ℝ) : Poly ℝ := ⟨r, [⟨⟨1, -1⟩, ⟨-1, -3⟩⟩, ⟨⟨1, 1⟩, ⟨1, 0⟩⟩, ⟨⟨-2, 0⟩, ⟨-1, 3⟩⟩], []⟩
noncomputable def triShp (r : ℝ) : Shp ℝ := ⟨.poly (tri r), ⟨-2, -1, 1, 1⟩, ⟨1, 0⟩, 2#64⟩
noncomputable def ball (x : ℝ) : Shp ℝ := ⟨.circle ⟨⟨0, 0⟩, ⟨x, 0⟩, 1⟩, ⟨x - 1, -1, x + 1, 1⟩, ⟨1, 0⟩, 1#64⟩

theorem tri_support (r : ℝ) (n : Vec ℝ) (hn : |n.x| < 5 ∧ |n.y| < 5) :
    (n.y ≤ 0 → n.y ≤ 3 * n.x → supportIndex (tri r).dst n = 0) ∧
    (0 < n.y → -3 * n.x ≤ n.y → supportIndex (tri r).dst n = 1) ∧
    (n.y = 0 → n.x < 0 → supportIndex (tri r).dst n = 2) := by
  obtain ⟨h1, h2⟩ := abs_lt.1 hn.1
  obtain ⟨h3, h4⟩ := abs_lt.1 hn.2
  have hm : -(maxFloat : ℝ) < 1 * n.x + -1 * n.y := neg_maxFloat_lt (by linarith)
  have e : (tri r).dst = [⟨⟨1, -1⟩, ⟨-1, -3⟩⟩, ⟨⟨1, 1⟩, ⟨1, 0⟩⟩, ⟨⟨-2, 0⟩, ⟨-1, 3⟩⟩] := rfl
  refine ⟨fun a b => ?_, fun a b => ?_, fun a b => ?_⟩
  · rw [supportIndex, e, sif_take, sif_skip, sif_skip]; rfl
    all_goals simp only [Vec.dot]
    all_goals first | exact hm | linarith
  · rw [supportIndex, e, sif_take, sif_take, sif_skip]; rfl
    all_goals simp only [Vec.dot]
    all_goals first | exact hm | linarith
  · rw [supportIndex, e, sif_take, sif_skip, sif_take]; rfl
    all_goals simp only [Vec.dot]
    all_goals first | exact hm | linarith

theorem tri_fine (r : ℝ) : (triShp r).cls.Fine := by
  have e : (2 : ℝ) ≤ 2 ^ 500 := by
    calc (2 : ℝ) = 2 ^ 1 := by norm_num
      _ ≤ 2 ^ 500 := pow_le_pow_right₀ (by norm_num) (by norm_num)
  refine ⟨by simp [triShp, tri, Cls.verts], by simp [triShp, tri, Cls.verts], ?_⟩
  intro v hv
  simp only [triShp, tri, Cls.verts, List.map_cons, List.map_nil, List.mem_cons, List.not_mem_nil, or_false] at hv
  rcases hv with rfl | rfl | rfl <;> constructor <;> refine le_trans ?_ e <;> norm_num [abs_le]

theorem ball_fine (x : ℝ) (hx : |x| ≤ 3) : (ball x).cls.Fine := by
  have e : (4 : ℝ) ≤ 2 ^ 500 := by
    calc (4 : ℝ) = 2 ^ 2 := by norm_num
      _ ≤ 2 ^ 500 := pow_le_pow_right₀ (by norm_num) (by norm_num)
  refine ⟨by simp [ball, Cls.verts], by simp [ball, Cls.verts], ?_⟩
  intro v hv
  simp only [ball, Cls.verts, List.mem_singleton] at hv
  subst hv
  constructor
  · exact hx.trans (le_trans (by norm_num) e)
  · refine le_trans ?_ e; norm_num

theorem ball_support (x r : ℝ) (n : Vec ℝ) : supportM (ball x).cls (triShp r).cls n =
    Mink.new ⟨⟨x, 0⟩, 0⟩ ⟨vert (tri r).dst (supportIndex (tri r).dst n), supportIndex (tri r).dst n⟩ := rfl

theorem ball_start (x r : ℝ) (h0 : 0 ≤ x) (hx : x ≤ 3) : gjkStart (ball x) (triShp r) 0 =
    (⟨⟨x, 0⟩, ⟨1, 1⟩, ⟨1 - x, 1⟩, 1⟩, ⟨⟨x, 0⟩, ⟨1, -1⟩, ⟨1 - x, -1⟩, 0⟩) := by
  have e1 : ((ball x).bb.center.sub (triShp r).bb.center).perp = (⟨0, x + 1 / 2⟩ : Vec ℝ) := by
    ext
    · norm_num [ball, triShp, BB.center, Vec.lerp, Vec.add, Vec.mult, Vec.sub, Vec.perp]
    · norm_num [ball, triShp, BB.center, Vec.lerp, Vec.add, Vec.mult, Vec.sub, Vec.perp]; ring
  have i1 := (tri_support r ⟨0, x + 1 / 2⟩ (by simp only [abs_lt]; constructor <;> constructor <;> linarith)).2.1
    (by simp only; linarith) (by simp only; linarith)
  have i2 := (tri_support r ⟨0, -(x + 1 / 2)⟩ (by simp only [abs_lt]; constructor <;> constructor <;> linarith)).1
    (by simp only; linarith) (by simp only; linarith)
  have e2 : (⟨0, x + 1 / 2⟩ : Vec ℝ).neg = ⟨0, -(x + 1 / 2)⟩ := by ext <;> norm_num [Vec.neg]
  simp only [gjkStart, ne_eq, not_true_eq_false, if_false, e1, e2, ball_support, i1, i2]
  norm_num [Mink.new, vert, tri, Vec.sub]

/-- A circle two units right of the triangle: the regular end on the axis check. -/
theorem far_gjk (r : ℝ) : gjk (ball 3) (triShp r) 0 = some (Mink.closestPoints (F := ℝ) ⟨⟨3, 0⟩, ⟨1, 1⟩, ⟨-2, 1⟩, 1⟩
    ⟨⟨3, 0⟩, ⟨1, -1⟩, ⟨-2, -1⟩, 0⟩, .axis) := by
  unfold gjk
  rw [ball_start 3 r (by norm_num) (by norm_num)]
  simp only
  have i1 := (tri_support r ⟨2, 0⟩ (by norm_num [abs_lt])).1 (by norm_num) (by norm_num)
  have t1 : (⟨-2, 1⟩ : Vec ℝ).closestT ⟨-2, -1⟩ = 0 := by
    norm_num [Vec.closestT, Vec.sub, Vec.lengthSq, Vec.dot, Vec.add, clamp]
  rw [show (1 - 3 : ℝ) = -2 by norm_num, gjk_axis (n := ⟨2, 0⟩) (p := ⟨⟨3, 0⟩, ⟨1, -1⟩, ⟨-2, -1⟩, 0⟩)]
  · norm_num [Vec.pointGreater]
  · simp only [gjkAxis, t1]; norm_num [Vec.sub, Vec.perp]
  · rw [ball_support, i1]; norm_num [Mink.new, vert, tri, Vec.sub]
  · norm_num [Vec.pointGreater]
  · norm_num [Vec.checkAxis, Vec.dot]

/-- The swap and the step into EPA. -/
theorem gjk_swap {s1 s2 : Cls ℝ} {fuel left : Nat} {v0 v1 : Mink ℝ} (h1 : v1.ab.pointGreater v0.ab ⟨0, 0⟩ = true) :
    gjkRecurse s1 s2 (fuel + 1) (left + 1) v0 v1 = gjkRecurse s1 s2 fuel (left + 1) v1 v0 := by
  rw [gjkRecurse.eq_def]
  simp only [h1, if_true]

theorem gjk_epa {s1 s2 : Cls ℝ} {fuel left : Nat} {v0 v1 p : Mink ℝ} {n : Vec ℝ} (h1 : v1.ab.pointGreater v0.ab ⟨0, 0⟩ = false)
    (hn : gjkAxis v0 v1 = n) (hp : supportM s1 s2 n = p) (h2 : p.ab.pointGreater v0.ab ⟨0, 0⟩ = true)
    (h3 : v1.ab.pointGreater p.ab ⟨0, 0⟩ = true) :
    gjkRecurse s1 s2 (fuel + 1) (left + 1) v0 v1 = epaRecurse s1 s2 29 [v0, p, v1] := by
  rw [gjkRecurse.eq_def]
  simp only [h1, hn, hp, h2, h3, Bool.false_eq_true, if_false, and_self, if_true]

/-- The circle inside of the triangle: EPA ends on an edge. -/
theorem inside_gjk (r : ℝ) : gjk (ball 0) (triShp r) 0 = some (Mink.closestPoints (F := ℝ) ⟨⟨0, 0⟩, ⟨1, -1⟩, ⟨1, -1⟩, 0⟩
    ⟨⟨0, 0⟩, ⟨-2, 0⟩, ⟨-2, 0⟩, 2⟩, .edge) := by
  unfold gjk
  rw [ball_start 0 r (by norm_num) (by norm_num)]
  simp only
  have i1 := (tri_support r ⟨-2, 0⟩ (by norm_num [abs_lt])).2.2 (by norm_num) (by norm_num)
  have i2 := (tri_support r ⟨-1, -3⟩ (by norm_num [abs_lt])).1 (by norm_num) (by norm_num)
  have t1 : (⟨1, -1⟩ : Vec ℝ).closestT ⟨1, 1⟩ = 0 := by
    norm_num [Vec.closestT, Vec.sub, Vec.lengthSq, Vec.dot, Vec.add, clamp]
  have t2 : (⟨1, -1⟩ : Vec ℝ).closestT ⟨-2, 0⟩ = -1 / 5 := by
    norm_num [Vec.closestT, Vec.sub, Vec.lengthSq, Vec.dot, Vec.add, clamp]
  have t3 : (⟨-2, 0⟩ : Vec ℝ).closestT ⟨1, 1⟩ = 1 / 5 := by
    norm_num [Vec.closestT, Vec.sub, Vec.lengthSq, Vec.dot, Vec.add, clamp]
  have t4 : (⟨1, 1⟩ : Vec ℝ).closestT ⟨1, -1⟩ = 0 := by
    norm_num [Vec.closestT, Vec.sub, Vec.lengthSq, Vec.dot, Vec.add, clamp]
  have d2 : (⟨1, -1⟩ : Vec ℝ).closestDist ⟨-2, 0⟩ = 2 / 5 := by
    simp only [Vec.closestDist, t2]; norm_num [Vec.lerpT, Vec.add, Vec.mult, Vec.lengthSq, Vec.dot]
  have d3 : (⟨-2, 0⟩ : Vec ℝ).closestDist ⟨1, 1⟩ = 2 / 5 := by
    simp only [Vec.closestDist, t3]; norm_num [Vec.lerpT, Vec.add, Vec.mult, Vec.lengthSq, Vec.dot]
  have d4 : (⟨1, 1⟩ : Vec ℝ).closestDist ⟨1, -1⟩ = 1 := by
    simp only [Vec.closestDist, t4]; norm_num [Vec.lerpT, Vec.add, Vec.mult, Vec.lengthSq, Vec.dot]
  have hm : (1 : ℝ) < maxFloat := one_lt_maxFloat
  rw [show (1 - 0 : ℝ) = 1 by norm_num, gjk_swap, gjk_epa (n := ⟨-2, 0⟩) (p := ⟨⟨0, 0⟩, ⟨-2, 0⟩, ⟨-2, 0⟩, 2⟩)]
  · have hc : closestEdge (F := ℝ) [⟨⟨0, 0⟩, ⟨1, -1⟩, ⟨1, -1⟩, 0⟩, ⟨⟨0, 0⟩, ⟨-2, 0⟩, ⟨-2, 0⟩, 2⟩, ⟨⟨0, 0⟩, ⟨1, 1⟩, ⟨1, 1⟩, 1⟩]
        ⟨⟨0, 0⟩, ⟨1, 1⟩, ⟨1, 1⟩, 1⟩ = 0 := by
      simp only [closestEdge, closestEdgeFrom, d2, d3, d4]
      rw [if_pos hm, if_pos (by norm_num), if_neg (by norm_num)]
    have hp : supportM (ball 0).cls (triShp r).cls ⟨-1, -3⟩ = ⟨⟨0, 0⟩, ⟨1, -1⟩, ⟨1, -1⟩, 0⟩ := by
      rw [ball_support, i2]; norm_num [Mink.new, vert, tri, Vec.sub]
    have hv : ((⟨-2, 0⟩ : Vec ℝ).sub ⟨1, -1⟩).perp = ⟨-1, -3⟩ := by norm_num [Vec.sub, Vec.perp]
    rw [epaRecurse.eq_def]
    simp only [List.getLast?_cons_cons, List.getLast?_singleton, Option.bind_eq_bind, Option.bind_some, hc,
      List.length_cons, List.length_nil, List.getElem?_cons_zero]
    norm_num [hv, hp]
  · norm_num [Vec.pointGreater]
  · simp only [gjkAxis, t1]; norm_num [Vec.sub, Vec.perp]
  · rw [ball_support, i1]; norm_num [Mink.new, vert, tri, Vec.sub]
  · norm_num [Vec.pointGreater]
  · norm_num [Vec.pointGreater]
  · norm_num [Vec.pointGreater]

/-- Both regular ends occur, with shapes that are apart and shapes that overlap. -/
example (r : ℝ) : (∃ c, gjk (ball 3) (triShp r) 0 = some (c, .axis) ∧ 0 < c.d ∧ Apart (ball 3).cls (triShp r).cls c) ∧
    (∃ c, gjk (ball 0) (triShp r) 0 = some (c, .edge) ∧ Overlap (ball 0).cls (triShp r).cls c) := by
  constructor
  · refine ⟨_, far_gjk r, ?_⟩
    rcases C33_sound (ball_fine 3 (by norm_num)) (tri_fine r) (far_gjk r) (by simp) with h | ⟨h, _⟩ | ⟨h, _⟩
    · exact h
    all_goals
      obtain ⟨-, -, hc⟩ := closestPoints_cases ⟨⟨3, 0⟩, ⟨1, 1⟩, ⟨-2, 1⟩, 1⟩ ⟨⟨3, 0⟩, ⟨1, -1⟩, ⟨-2, -1⟩, 0⟩
      have t1 : (⟨-2, 1⟩ : Vec ℝ).closestT ⟨-2, -1⟩ = 0 := by
        norm_num [Vec.closestT, Vec.sub, Vec.lengthSq, Vec.dot, Vec.add, clamp]
      rcases hc with ⟨hd, _⟩ | ⟨_, hd, _⟩
      · rw [hd] at h
        have : 0 < scale ((⟨-2, -1⟩ : Vec ℝ).sub ⟨-2, 1⟩) * (⟨-2, 1⟩ : Vec ℝ).cross ⟨-2, -1⟩ :=
          mul_pos (scale_pos _) (by norm_num [Vec.cross])
        exfalso; linarith
      · simp only [t1] at hd; norm_num at hd
  · refine ⟨_, inside_gjk r, ?_⟩
    rcases C33_sound (ball_fine 0 (by norm_num)) (tri_fine r) (inside_gjk r) (by simp) with ⟨h, _⟩ | ⟨_, h⟩ | ⟨_, h⟩
    · obtain ⟨-, -, hc⟩ := closestPoints_cases ⟨⟨0, 0⟩, ⟨1, -1⟩, ⟨1, -1⟩, 0⟩ ⟨⟨0, 0⟩, ⟨-2, 0⟩, ⟨-2, 0⟩, 2⟩
      rcases hc with ⟨hd, _⟩ | ⟨hd, _⟩
      · rw [hd] at h
        have : 0 < scale ((⟨-2, 0⟩ : Vec ℝ).sub ⟨1, -1⟩) := scale_pos _
        norm_num [Vec.cross] at h
        linarith
      · norm_num [Vec.cross] at hd
    · exact h
    · cases h

end CP
