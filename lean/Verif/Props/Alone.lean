import Verif.Proofs.Alone3

/-! # C62: joints that are alone on their bodies

`(m.tick t.free).bodies` are the bodies as the step `t` would leave them without contacts and joints. -/

namespace CP
open GoFloat

theorem goal_clamp (c : Con ℝ) (dt e : ℝ) (hM : 0 ≤ c.maxBias) : clamp (-biasCoef c.errorBias dt * e / dt) (-c.maxBias) c.maxBias = c.goal dt e := by
  rw [clamp_eq_real _ _ _ (by linarith), Con.goal]
  have : -biasCoef c.errorBias dt * e / dt = -((1 - c.errorBias ^ dt) * e / dt) := by
    change -(1 - c.errorBias ^ dt) * e / dt = _
    ring
  rw [this]

theorem goal_odd (c : Con ℝ) (dt e : ℝ) (hM : 0 ≤ c.maxBias) : c.goal dt (-e) = -c.goal dt e := by
  simp only [Con.goal]
  have : -((1 - c.errorBias ^ dt) * -e / dt) = -(-((1 - c.errorBias ^ dt) * e / dt)) := by ring
  rw [this]
  generalize -((1 - c.errorBias ^ dt) * e / dt) = x
  rcases le_total x (-c.maxBias) with h1 | h1
  · rw [min_eq_right (by linarith), min_eq_left (by linarith), max_eq_right (by linarith), max_eq_left h1]; ring
  · rcases le_total x c.maxBias with h2 | h2
    · rw [min_eq_left (by linarith), min_eq_left h2, max_eq_right (by linarith), max_eq_right h1]
    · rw [min_eq_left (by linarith), min_eq_right h2, max_eq_left (by linarith), max_eq_right (by linarith)]

theorem goal_neg (c : Con ℝ) {dt e : ℝ} (hdt : 0 < dt) (hM : 0 < c.maxBias) (hr : c.errorBias ^ dt < 1) (he : 0 < e) : c.goal dt e < 0 := by
  have : 0 < (1 - c.errorBias ^ dt) * e / dt := div_pos (mul_pos (by linarith) he) hdt
  simp only [Con.goal]
  exact max_lt (by linarith) (lt_of_le_of_lt (min_le_left _ _) (by linarith))

/-- **C62**, motor: alone on its bodies, and with nothing stored or equal steps, a motor gives them on top of what forces do the angular impulse that makes
them turn at its rate, limited to `MaxForce * dt`, and `GetImpulse` reports it — however many iterations there are. -/
theorem C62_motor {m : Motion ℝ} {t : Tick ℝ} {k : Nat} {j : SimpleMotor ℝ} (hs : t.Sole m k) (hk : m.joints k = .motor j)
    (hi : 0 < (m.bodies j.a).i_inv + (m.bodies j.b).i_inv) (hit : 0 < t.iterations) (hF : 0 ≤ j.maxForce) (he : t.Evenly m j.jAcc) :
    let free := (m.tick t.free).bodies
    let K := (m.bodies j.a).i_inv + (m.bodies j.b).i_inv
    let L := j.maxForce * t.dt
    ∃ P, P = max (-L) (min ((-j.rate - ((free j.b).w - (free j.a).w)) / K) L) ∧ Spun free (m.tick t).bodies j.a j.b 1 P ∧
      ((m.tick t).joints k).getImpulse = |P| := by
  intro free K L
  obtain ⟨h1, h2⟩ := motor_tick hs hk hi hit
  have hL : 0 ≤ L := mul_nonneg hF hs.pos.le
  rw [share_even hs.pos.ne' he, sub_zero, add_zero, clamp_eq_real _ _ _ (by show -L ≤ L; linarith)] at h1
  rw [share_even hs.pos.ne' he, sub_zero, clamp_eq_real _ _ _ (by show -L ≤ L; linarith)] at h2
  have e : -((free j.b).w - (free j.a).w + j.rate) / K = (-j.rate - ((free j.b).w - (free j.a).w)) / K := by ring
  refine ⟨_, rfl, ?_, ?_⟩
  · rw [← e]; exact h1
  · rw [h2, ← e]
    simp only [Joint.getImpulse, SimpleMotor.getImpulse, fabs_real]
    rfl

/-- **C62**, violated: `MaxForce` does not limit what a motor does if the steps are not equally long. A motor that used all its force in the last step and
has still far to go turns its bodies in a longer step with `MaxForce * (2 * dt - last dt)`; `GetImpulse` reports `MaxForce * dt`. -/
theorem C62_longer_step_violated {m : Motion ℝ} {t : Tick ℝ} {k : Nat} {j : SimpleMotor ℝ} (hs : t.Sole m k) (hk : m.joints k = .motor j)
    (hi : 0 < (m.bodies j.a).i_inv + (m.bodies j.b).i_inv) (hit : 0 < t.iterations) (hF : 0 < j.maxForce) (h0 : 0 < m.currDt) (hlong : m.currDt < t.dt)
    (hfull : j.jAcc = j.maxForce * m.currDt)
    (hfar : j.maxForce * (2 * t.dt - m.currDt) * ((m.bodies j.a).i_inv + (m.bodies j.b).i_inv) ≤
      -j.rate - (((m.tick t.free).bodies j.b).w - ((m.tick t.free).bodies j.a).w)) :
    ∃ P, Spun (m.tick t.free).bodies (m.tick t).bodies j.a j.b 1 P ∧ P = j.maxForce * (2 * t.dt - m.currDt) ∧ j.maxForce * t.dt < P ∧
      ((m.tick t).joints k).getImpulse = j.maxForce * t.dt := by
  obtain ⟨h1, h2⟩ := motor_tick hs hk hi hit
  have hN : (m.share t - 1) * j.jAcc = j.maxForce * (t.dt - m.currDt) := by
    rw [hfull, Motion.share, if_pos h0.ne']
    have := h0.ne'
    field_simp
  rw [hN] at h1 h2
  have hL : 0 ≤ j.maxForce * t.dt := mul_nonneg hF.le hs.pos.le
  have hJ : clamp (-(((m.tick t.free).bodies j.b).w - ((m.tick t.free).bodies j.a).w + j.rate) / ((m.bodies j.a).i_inv + (m.bodies j.b).i_inv) - j.maxForce * (t.dt - m.currDt))
      (-(j.maxForce * t.dt)) (j.maxForce * t.dt) = j.maxForce * t.dt := by
    rw [clamp_eq_real _ _ _ (by linarith)]
    have hx : j.maxForce * (2 * t.dt - m.currDt) ≤ -(((m.tick t.free).bodies j.b).w - ((m.tick t.free).bodies j.a).w + j.rate) / ((m.bodies j.a).i_inv + (m.bodies j.b).i_inv) := by
      rw [le_div_iff₀ hi]; linarith
    rw [min_eq_right (by linarith), max_eq_right (by linarith)]
  rw [hJ] at h1 h2
  refine ⟨_, h1, by ring, ?_, ?_⟩
  · have := mul_pos hF (sub_pos.2 hlong); linarith
  · rw [h2]
    simp only [Joint.getImpulse, SimpleMotor.getImpulse, fabs_real]
    exact abs_of_nonneg hL

/-- **C62**, gear: … the angular impulse that makes `angle_b * ratio - angle_a` approach the phase as the settings say, limited to `MaxForce * dt`. -/
theorem C62_gear {m : Motion ℝ} {t : Tick ℝ} {k : Nat} {j : GearJoint ℝ} (hs : t.Sole m k) (hk : m.joints k = .gear j)
    (hi : (m.bodies j.a).i_inv * j.ratio_inv + j.ratio * (m.bodies j.b).i_inv ≠ 0) (hit : 0 < t.iterations) (hF : 0 ≤ j.maxForce) (hM : 0 ≤ j.maxBias)
    (he : t.Evenly m j.jAcc) :
    let free := (m.tick t.free).bodies
    let K := (m.bodies j.a).i_inv * j.ratio_inv + j.ratio * (m.bodies j.b).i_inv
    let L := j.maxForce * t.dt
    ∃ P, P = max (-L) (min ((j.goal t.dt (gearError free j) - ((free j.b).w * j.ratio - (free j.a).w)) / K) L) ∧
      Spun free (m.tick t).bodies j.a j.b j.ratio_inv P ∧ ((m.tick t).joints k).getImpulse = |P| := by
  intro free K L
  obtain ⟨h1, h2⟩ := gear_tick hs hk hi hit
  have ff := free_frozen m t hs.pos.ne' hs.dyn
  have eg : clamp (-biasCoef j.errorBias t.dt * ((m.seen t j.b).a * j.ratio - (m.seen t j.a).a - j.phase) / t.dt) (-j.maxBias) j.maxBias = j.goal t.dt (gearError free j) := by
    rw [goal_clamp _ _ _ hM]
    simp only [gearError, free, (ff _).a]
  have hL : 0 ≤ L := mul_nonneg hF hs.pos.le
  rw [share_even hs.pos.ne' he, sub_zero, add_zero, eg, clamp_eq_real _ _ _ (by show -L ≤ L; linarith)] at h1
  rw [share_even hs.pos.ne' he, sub_zero, eg, clamp_eq_real _ _ _ (by show -L ≤ L; linarith)] at h2
  refine ⟨_, rfl, h1, ?_⟩
  rw [h2]
  simp only [Joint.getImpulse, GearJoint.getImpulse, fabs_real]
  rfl

/-- **C62**, rotary limit: within its limits it does nothing; beyond one it gives the angular impulse that turns the bodies back as the settings say, but
never pulls them further and never uses more than `MaxForce * dt`. -/
theorem C62_limit {m : Motion ℝ} {t : Tick ℝ} {k : Nat} {j : RotaryLimitJoint ℝ} (hs : t.Sole m k) (hk : m.joints k = .rotaryLimit j)
    (hi : 0 < (m.bodies j.a).i_inv + (m.bodies j.b).i_inv) (hit : 0 < t.iterations) (hF : 0 ≤ j.maxForce) (hM : 0 < j.maxBias) (hr : j.errorBias ^ t.dt < 1)
    (hmm : j.min ≤ j.max) (he : t.Evenly m j.jAcc) :
    let free := (m.tick t.free).bodies
    let K := (m.bodies j.a).i_inv + (m.bodies j.b).i_inv
    let L := j.maxForce * t.dt
    let d := relAngle free j.a j.b
    let needed := fun e => (j.goal t.dt e - ((free j.b).w - (free j.a).w)) / K
    ∃ P, Spun free (m.tick t).bodies j.a j.b 1 P ∧ ((m.tick t).joints k).getImpulse = |P| ∧
      (j.min ≤ d → d ≤ j.max → P = 0) ∧ (j.max < d → P = max (-L) (min (needed (d - j.max)) 0)) ∧ (d < j.min → P = max 0 (min (needed (d - j.min)) L)) := by
  intro free K L d needed
  have ff := free_frozen m t hs.pos.ne' hs.dyn
  have hd : (m.seen t j.b).a - (m.seen t j.a).a = d := by simp only [d, relAngle, free, (ff _).a]
  have hL : 0 ≤ L := mul_nonneg hF hs.pos.le
  have hb : (j.preStep (m.seen t) t.dt).2.bias = j.goal t.dt (if j.max < d then j.max - d else if d < j.min then j.min - d else 0) := by
    simp only [RotaryLimitJoint.preStep, hd]
    exact goal_clamp _ _ _ hM.le
  by_cases c1 : j.max < d
  · have hb' : (j.preStep (m.seen t) t.dt).2.bias = -j.goal t.dt (d - j.max) := by
      rw [hb, if_pos c1, ← goal_odd _ _ _ hM.le, neg_sub]
    have hg := goal_neg j.toCon hs.pos hM hr (sub_pos.2 c1)
    obtain ⟨h1, h2⟩ := limit_tick hs hk hi hit _ hb' (by linarith)
    rw [share_even hs.pos.ne' he, sub_zero, add_zero, if_neg (by linarith), clamp_eq_real _ _ _ (by show -L ≤ 0; linarith)] at h1
    rw [share_even hs.pos.ne' he, sub_zero, if_neg (by linarith), clamp_eq_real _ _ _ (by show -L ≤ 0; linarith)] at h2
    have e : -(-j.goal t.dt (d - j.max) + ((free j.b).w - (free j.a).w)) / K = needed (d - j.max) := by simp only [needed]; ring
    refine ⟨_, h1, ?_, fun _ h => absurd h (not_le.2 c1), fun _ => ?_, fun h => absurd h (by linarith)⟩
    · rw [h2]; simp only [Joint.getImpulse, RotaryLimitJoint.getImpulse, fabs_real]
    · rw [← e]
  by_cases c2 : d < j.min
  · have hb' : (j.preStep (m.seen t) t.dt).2.bias = -j.goal t.dt (d - j.min) := by
      rw [hb, if_neg c1, if_pos c2, ← goal_odd _ _ _ hM.le, neg_sub]
    have hg := goal_neg j.toCon hs.pos hM hr (sub_pos.2 c2)
    have hg' : 0 < j.goal t.dt (d - j.min) := by
      have := goal_odd j.toCon t.dt (j.min - d) hM.le
      rw [neg_sub] at this; rw [this]; linarith
    obtain ⟨h1, h2⟩ := limit_tick hs hk hi hit _ hb' (by linarith)
    rw [share_even hs.pos.ne' he, sub_zero, add_zero, if_pos (by linarith), clamp_eq_real _ _ _ hL] at h1
    rw [share_even hs.pos.ne' he, sub_zero, if_pos (by linarith), clamp_eq_real _ _ _ hL] at h2
    have e : -(-j.goal t.dt (d - j.min) + ((free j.b).w - (free j.a).w)) / K = needed (d - j.min) := by simp only [needed]; ring
    refine ⟨_, h1, ?_, fun h => absurd h (not_le.2 c2), fun h => absurd h c1, fun _ => ?_⟩
    · rw [h2]; simp only [Joint.getImpulse, RotaryLimitJoint.getImpulse, fabs_real]
    · rw [← e]
  · rw [if_neg c1, if_neg c2] at hb
    have hz : j.goal t.dt 0 = 0 := by
      have := goal_odd j.toCon t.dt 0 hM.le
      rw [neg_zero] at this; linarith
    obtain ⟨h1, h2⟩ := limit_idle hs hk hit (hb.trans hz)
    exact ⟨0, h1, by rw [h2, abs_zero], fun _ _ => rfl, fun h => absurd h c1, fun h => absurd h c2⟩

/-- **C62**, ratchet: while the bodies turn in its direction it does nothing; when they have turned back beyond the last notch it gives the angular impulse
that turns them forward again as the settings say, never backwards and never with more than `MaxForce * dt`. -/
theorem C62_ratchet {m : Motion ℝ} {t : Tick ℝ} {k : Nat} {j : RatchetJoint ℝ} (hs : t.Sole m k) (hk : m.joints k = .ratchet j)
    (hi : 0 < (m.bodies j.a).i_inv + (m.bodies j.b).i_inv) (hit : 0 < t.iterations) (hF : 0 ≤ j.maxForce) (hM : 0 < j.maxBias) (hr : j.errorBias ^ t.dt < 1)
    (hra : j.ratchet ≠ 0) (he : t.Evenly m j.jAcc) :
    let free := (m.tick t.free).bodies
    let K := (m.bodies j.a).i_inv + (m.bodies j.b).i_inv
    let L := j.maxForce * t.dt
    let d := relAngle free j.a j.b
    let needed := (j.goal t.dt (d - j.angle) - ((free j.b).w - (free j.a).w)) / K
    ∃ P, Spun free (m.tick t).bodies j.a j.b 1 P ∧ ((m.tick t).joints k).getImpulse = |P| ∧
      ((j.angle - d) * j.ratchet ≤ 0 → P = 0) ∧
      (0 < j.ratchet → d < j.angle → P = max 0 (min needed L)) ∧ (j.ratchet < 0 → j.angle < d → P = max (-L) (min needed 0)) := by
  intro free K L d needed
  have ff := free_frozen m t hs.pos.ne' hs.dyn
  have hd : (m.seen t j.b).a - (m.seen t j.a).a = d := by simp only [d, relAngle, free, (ff _).a]
  have hL : 0 ≤ L := mul_nonneg hF hs.pos.le
  have hb : (j.preStep (m.seen t) t.dt).2.bias = j.goal t.dt (if 0 < (j.angle - d) * j.ratchet then j.angle - d else 0) := by
    simp only [RatchetJoint.preStep, hd]
    rw [← goal_clamp _ _ _ hM.le]
    split <;> rfl
  by_cases c : 0 < (j.angle - d) * j.ratchet
  · have hb' : (j.preStep (m.seen t) t.dt).2.bias = -j.goal t.dt (d - j.angle) := by
      rw [hb, if_pos c, ← goal_odd _ _ _ hM.le, neg_sub]
    have hne : j.goal t.dt (d - j.angle) ≠ 0 := by
      rcases lt_or_gt_of_ne hra with h | h
      · have : 0 < d - j.angle := by nlinarith
        exact (goal_neg j.toCon hs.pos hM hr this).ne
      · have : 0 < j.angle - d := by nlinarith
        have h1 := goal_neg j.toCon hs.pos hM hr this
        have h2 := goal_odd j.toCon t.dt (j.angle - d) hM.le
        rw [neg_sub] at h2; rw [h2]; linarith
    obtain ⟨h1, h2⟩ := ratchet_tick hs hk hi hit _ hb' (neg_ne_zero.2 hne)
    have e : -(-j.goal t.dt (d - j.angle) + ((free j.b).w - (free j.a).w)) / K = needed := by simp only [needed]; ring
    rw [share_even hs.pos.ne' he, sub_zero, e] at h2
    rw [share_even hs.pos.ne' he, sub_zero, add_zero, e] at h1
    rw [clamp_eq_real _ _ _ (mul_nonneg hL (abs_nonneg _))] at h1 h2
    refine ⟨_, h1, h2, fun h => absurd c (not_lt.2 h), fun hp hlt => ?_, fun hp hlt => ?_⟩
    · rw [abs_of_pos hp]
      change max 0 (min (needed * j.ratchet) (L * j.ratchet)) / j.ratchet = _
      rw [← min_mul_of_nonneg _ _ hp.le]
      have : (0 : ℝ) = 0 * j.ratchet := by ring
      conv_lhs => rw [this, ← max_mul_of_nonneg _ _ hp.le]
      field_simp
    · rw [abs_of_neg hp]
      change max 0 (min (needed * j.ratchet) (L * -j.ratchet)) / j.ratchet = _
      have hp' : 0 ≤ -j.ratchet := by linarith
      have e1 : needed * j.ratchet = -needed * -j.ratchet := by ring
      have e2 : max 0 (min (needed * j.ratchet) (L * -j.ratchet)) = max 0 (min (-needed) L) * -j.ratchet := by
        rw [max_mul_of_nonneg _ _ hp', min_mul_of_nonneg _ _ hp', zero_mul, e1]
      rw [e2]
      have e3 : max 0 (min (-needed) L) = -(max (-L) (min needed 0)) := by
        rcases le_total needed 0 with q | q
        · rcases le_total (-needed) L with w | w
          · rw [min_eq_left w, max_eq_right (by linarith), min_eq_left q, max_eq_right (by linarith)]
          · rw [min_eq_right w, max_eq_right hL, min_eq_left q, max_eq_left (by linarith)]; ring
        · rw [min_eq_left (by linarith), max_eq_left (by linarith), min_eq_right q, max_eq_right (by linarith)]; ring
      rw [e3]
      field_simp
  · rw [if_neg c] at hb
    have hz : j.goal t.dt 0 = 0 := by
      have := goal_odd j.toCon t.dt 0 hM.le
      rw [neg_zero] at this; linarith
    obtain ⟨h1, h2⟩ := ratchet_idle hs hk hit (hb.trans hz)
    refine ⟨0, h1, by rw [h2, abs_zero], fun _ => rfl, fun hp hlt => absurd (mul_pos (sub_pos.2 hlt) hp) c, fun hp hlt => ?_⟩
    exact absurd (mul_pos_of_neg_of_neg (by linarith : j.angle - d < 0) hp) c

/-- **C62**, pin: … the impulse along the line between the grips that makes their distance approach `Dist` as the settings say, limited to `MaxForce * dt`. -/
theorem C62_pin {m : Motion ℝ} {t : Tick ℝ} {k : Nat} {j : PinJoint ℝ} (hs : t.Sole m k) (hk : m.joints k = .pin j)
    (hsv : Solvable m.bodies j.a j.b) (hit : 0 < t.iterations) (hF : 0 ≤ j.maxForce) (hM : 0 ≤ j.maxBias) (he : t.Evenly m j.jnAcc) (hn : t.movers.Nodup)
    (ua : UpToDate m.bodies j.a) (ub : UpToDate m.bodies j.b) (hne : grip (m.seen t) j.a j.anchorA ≠ grip (m.seen t) j.b j.anchorB) :
    let free := (m.tick t.free).bodies
    let gap := gripGap free j.a j.b j.anchorA j.anchorB
    let n := gap.mult (1 / gap.length)
    let ra := (grip free j.a j.anchorA).sub (free j.a).p
    let rb := (grip free j.b j.anchorB).sub (free j.b).p
    let K := yields free j.a j.b ra rb n
    let apart := fun h : Bodies ℝ => ((gripVel h j.b j.anchorB).sub (gripVel h j.a j.anchorA)).dot n
    let L := j.maxForce * t.dt
    ∃ P, P = max (-L) (min ((j.goal t.dt (gap.length - j.dist) - apart free) / K) L) ∧ Pulled free (m.tick t).bodies j.a j.b ra rb (n.mult P) ∧
      ((m.tick t).joints k).getImpulse = |P| ∧ apart (m.tick t).bodies = apart free + K * P := by
  intro free gap n ra rb K apart L
  have ff := free_frozen m t hs.pos.ne' hs.dyn
  have wa := seen_wf hn ua (t := t)
  have wb := seen_wf hn ub (t := t)
  have fa : (free j.a).Wf := (ff j.a).wf wa
  have fb : (free j.b).Wf := (ff j.b).wf wb
  have oa : anchorOffset (free j.a) j.anchorA = anchorOffset (m.seen t j.a) j.anchorA := by simp only [anchorOffset, free, (ff _).transform, (ff _).cog]
  have ob : anchorOffset (free j.b) j.anchorB = anchorOffset (m.seen t j.b) j.anchorB := by simp only [anchorOffset, free, (ff _).transform, (ff _).cog]
  have e : ∀ u v : Vec ℝ, (u.add v).sub u = v := by intro u v; ext <;> simp [Vec.add, Vec.sub]
  have hra : ra = anchorOffset (m.seen t j.a) j.anchorA := by simp only [ra]; rw [grip_eq fa, e, oa]
  have hrb : rb = anchorOffset (m.seen t j.b) j.anchorB := by simp only [rb]; rw [grip_eq fb, e, ob]
  have hδ : gap = ((m.seen t j.b).p.add rb).sub ((m.seen t j.a).p.add ra) := by
    simp only [gap, gripGap]; rw [grip_eq fa, grip_eq fb, hra, hrb, oa, ob, (ff _).p, (ff _).p]
  have h0 : gap.length ≠ 0 := by
    intro hz
    have h2 := gap.length_sq
    rw [hz] at h2
    simp only [Vec.dot] at h2
    have hx : gap.x = 0 := by nlinarith [sq_nonneg gap.x, sq_nonneg gap.y]
    have hy : gap.y = 0 := by nlinarith [sq_nonneg gap.x, sq_nonneg gap.y]
    apply hne
    rw [grip_eq wa, grip_eq wb, ← hra, ← hrb]
    rw [hδ] at hx hy
    simp only [Vec.sub] at hx hy
    ext
    · linarith
    · linarith
  obtain ⟨hK, hn1, hP, hj⟩ := pin_tick hs hk hsv hit ra rb gap n hra hrb hδ h0 rfl
  have hy : yields m.bodies j.a j.b ra rb n = K := by
    simp only [K, yields, free, (ff _).m_inv, (ff _).i_inv, (seen_inertia m t _).1, (seen_inertia m t _).2]
  have hap : normalRelVel free j.a j.b ra rb n = apart free := by
    simp only [apart]
    rw [← gripVel_rel fa fb, oa, ob, ← hra, ← hrb, normalRelVel]
  have hL : 0 ≤ L := mul_nonneg hF hs.pos.le
  rw [share_even hs.pos.ne' he, sub_zero, add_zero, goal_clamp _ _ _ hM, hy, hap, clamp_eq_real _ _ _ (by show -L ≤ L; linarith)] at hP
  rw [share_even hs.pos.ne' he, sub_zero, goal_clamp _ _ _ hM, hy, hap, clamp_eq_real _ _ _ (by show -L ≤ L; linarith)] at hj
  refine ⟨_, rfl, hP, hj, ?_⟩
  have r := hP.relVel hn1
  rw [hap] at r
  have ta := tick_frozen m t hs.pos.ne' j.a
  have tb := tick_frozen m t hs.pos.ne' j.b
  have oa' : anchorOffset ((m.tick t).bodies j.a) j.anchorA = ra := by rw [hra]; simp only [anchorOffset, ta.transform, ta.cog]
  have ob' : anchorOffset ((m.tick t).bodies j.b) j.anchorB = rb := by rw [hrb]; simp only [anchorOffset, tb.transform, tb.cog]
  have : apart (m.tick t).bodies = normalRelVel (m.tick t).bodies j.a j.b ra rb n := by
    simp only [apart]
    rw [← gripVel_rel (ta.wf wa) (tb.wf wb), oa', ob', normalRelVel]
  rw [this, r, mul_comm K]

/-- **C62**, pivot: … the impulse `needed` that makes the grips approach each other as the settings say, cut (`Vector.Clamp`) to the length `MaxForce * dt`. If it need not be cut
the grips then move against each other exactly at the goal velocity. -/
theorem C62_pivot {m : Motion ℝ} {t : Tick ℝ} {k : Nat} {j : PivotJoint ℝ} (hs : t.Sole m k) (hk : m.joints k = .pivot j)
    (hsv : Solvable m.bodies j.a j.b) (hit : 0 < t.iterations) (hF : 0 ≤ j.maxForce) (he : j.jAcc = ⟨0, 0⟩ ∨ m.currDt = t.dt) (hn : t.movers.Nodup)
    (ua : UpToDate m.bodies j.a) (ub : UpToDate m.bodies j.b) :
    let free := (m.tick t.free).bodies
    let gap := gripGap free j.a j.b j.anchorA j.anchorB
    let ra := (grip free j.a j.anchorA).sub (free j.a).p
    let rb := (grip free j.b j.anchorB).sub (free j.b).p
    let apart := fun h : Bodies ℝ => (gripVel h j.b j.anchorB).sub (gripVel h j.a j.anchorA)
    let goal := (gap.mult (-(1 - j.errorBias ^ t.dt) / t.dt)).clampLen j.maxBias
    let L := j.maxForce * t.dt
    ∃ needed P, (apart free).add (response free j.a j.b ra rb needed) = goal ∧ P = needed.clampLen L ∧
      Pulled free (m.tick t).bodies j.a j.b ra rb P ∧ ((m.tick t).joints k).getImpulse = P.length ∧
      apart (m.tick t).bodies = (apart free).add (response free j.a j.b ra rb P) ∧ (needed.length ≤ L → apart (m.tick t).bodies = goal) := by
  intro free gap ra rb apart goal L
  have ff := free_frozen m t hs.pos.ne' hs.dyn
  have wa := seen_wf hn ua (t := t)
  have wb := seen_wf hn ub (t := t)
  have fa : (free j.a).Wf := (ff j.a).wf wa
  have fb : (free j.b).Wf := (ff j.b).wf wb
  have oa : anchorOffset (free j.a) j.anchorA = anchorOffset (m.seen t j.a) j.anchorA := by simp only [anchorOffset, free, (ff _).transform, (ff _).cog]
  have ob : anchorOffset (free j.b) j.anchorB = anchorOffset (m.seen t j.b) j.anchorB := by simp only [anchorOffset, free, (ff _).transform, (ff _).cog]
  have e : ∀ u v : Vec ℝ, (u.add v).sub u = v := by intro u v; ext <;> simp [Vec.add, Vec.sub]
  have hra : ra = anchorOffset (m.seen t j.a) j.anchorA := by simp only [ra]; rw [grip_eq fa, e, oa]
  have hrb : rb = anchorOffset (m.seen t j.b) j.anchorB := by simp only [rb]; rw [grip_eq fb, e, ob]
  have hδ : gap = ((m.seen t j.b).p.add rb).sub ((m.seen t j.a).p.add ra) := by
    simp only [gap, gripGap]; rw [grip_eq fa, grip_eq fb, hra, hrb, oa, ob, (ff _).p, (ff _).p]
  obtain ⟨X, hX, hP, hj⟩ := pivot_tick hs hk hsv hit ra rb gap hra hrb hδ
  have hN : j.jAcc.mult (m.share t - 1) = ⟨0, 0⟩ := by
    rcases he with h | h
    · rw [h]; simp [Vec.mult]
    · rw [Motion.share, h, if_pos hs.pos.ne', div_self hs.pos.ne', sub_self]; simp [Vec.mult]
  have z1 : X.sub ⟨0, 0⟩ = X := by ext <;> simp [Vec.sub]
  have z2 : ∀ u : Vec ℝ, u.add ⟨0, 0⟩ = u := by intro u; ext <;> simp [Vec.add]
  rw [hN, z1] at hP hj
  rw [z2] at hP
  have hap : relVel free j.a j.b ra rb = apart free := by
    simp only [apart]
    rw [← gripVel_rel fa fb, oa, ob, ← hra, ← hrb]
  have hg : (gap.mult (-biasCoef j.errorBias t.dt / t.dt)).clampLen j.maxBias = goal := rfl
  rw [hap, hg] at hX
  have ta := tick_frozen m t hs.pos.ne' j.a
  have tb := tick_frozen m t hs.pos.ne' j.b
  have oa' : anchorOffset ((m.tick t).bodies j.a) j.anchorA = ra := by rw [hra]; simp only [anchorOffset, ta.transform, ta.cog]
  have ob' : anchorOffset ((m.tick t).bodies j.b) j.anchorB = rb := by rw [hrb]; simp only [anchorOffset, tb.transform, tb.cog]
  have hfin : apart (m.tick t).bodies = (apart free).add (response free j.a j.b ra rb (X.clampLen L)) := by
    have := pulled_relVel hP
    rw [hap] at this
    rw [← this]
    simp only [apart]
    rw [← gripVel_rel (ta.wf wa) (tb.wf wb), oa', ob']
  refine ⟨X, _, hX, rfl, hP, hj, hfin, fun hl => ?_⟩
  have hL : 0 ≤ L := mul_nonneg hF hs.pos.le
  rw [hfin, (C41_clampLen _ _ hL).2.1 hl]
  exact hX

end CP
