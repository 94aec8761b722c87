import Verif.Proofs.Spring3

/-! # C61: springs -/

namespace CP
open GoFloat Filter Topology

/-! ### The rotary spring -/

/-- **C61**, rotary spring, one step: if the spring alone acts on its bodies, the step changes their spins by one angular impulse `J`, and the
relative spin becomes the share `e^(-damping·dt·(1/i₁ + 1/i₂))` of what the spring's torque at the new angle makes of it — however many
iterations the solver makes. -/
theorem C61_rotary {m : Motion ℝ} {t : Tick ℝ} {k : Nat} {j : DampedRotarySpring ℝ} (hs : t.Sole m k) (hk : m.joints k = .rotarySpring j) (hu : t.Unforced m k)
    (hi : 0 < (m.bodies j.a).i_inv + (m.bodies j.b).i_inv) (hit : 0 < t.iterations) :
    let K := (m.bodies j.a).i_inv + (m.bodies j.b).i_inv
    let h := m.bodies
    let h' := (m.tick t).bodies
    (h' j.a).w - (h' j.b).w = Real.exp (-j.damping * t.dt * K) * ((h j.a).w - (h j.b).w - K * (j.torque ((h' j.a).a - (h' j.b).a) * t.dt)) ∧
    ∃ J, (h' j.a).w = (h j.a).w - (h j.a).i_inv * J ∧ (h' j.b).w = (h j.b).w + (h j.b).i_inv * J := by
  intro K h h'
  obtain ⟨r1, r2, -⟩ := rotary_tick hs hk hu hi hit
  have fa := (tick_frozen m t hs.pos.ne' j.a).a
  have fb := (tick_frozen m t hs.pos.ne' j.b).a
  rw [← fa, ← fb] at r1 r2
  refine ⟨?_, _, r1, r2⟩
  have hK : K ≠ 0 := hi.ne'
  simp only [h', h, r1, r2]
  change _ - _ * (_ / K) - (_ + _ * (_ / K)) = _ * (_ - K * _)
  obtain ⟨X, hX⟩ : ∃ X, X = (m.bodies j.a).w - (m.bodies j.b).w - Real.exp (-j.damping * t.dt * K) * ((m.bodies j.a).w - (m.bodies j.b).w -
    K * (j.torque (((m.tick t).bodies j.a).a - ((m.tick t).bodies j.b).a) * t.dt)) := ⟨_, rfl⟩
  have e : K * (X / K) = X := by field_simp
  have e' : ((m.bodies j.a).i_inv + (m.bodies j.b).i_inv) * (X / K) = X := e
  rw [← hX]
  linear_combination -e' - hX

/-- **C61**, violated: what `GetImpulse` of a rotary spring reports is not the angular impulse `J` that the spring gave its bodies: the part that
comes from damping is counted with the wrong sign. -/
theorem C61_rotary_impulse_violated {m : Motion ℝ} {t : Tick ℝ} {k : Nat} {j : DampedRotarySpring ℝ} (hs : t.Sole m k) (hk : m.joints k = .rotarySpring j)
    (hu : t.Unforced m k) (hi : 0 < (m.bodies j.a).i_inv + (m.bodies j.b).i_inv) (hit : 0 < t.iterations) (J : ℝ)
    (ha : ((m.tick t).bodies j.a).w = (m.bodies j.a).w - (m.bodies j.a).i_inv * J) (hb : ((m.tick t).bodies j.b).w = (m.bodies j.b).w + (m.bodies j.b).i_inv * J) :
    let S := j.torque (((m.tick t).bodies j.a).a - ((m.tick t).bodies j.b).a) * t.dt
    ((m.tick t).joints k).getImpulse = S - (J - S) := by
  intro S
  obtain ⟨r1, r2, tg, e⟩ := rotary_tick hs hk hu hi hit
  have fa := (tick_frozen m t hs.pos.ne' j.a).a
  have fb := (tick_frozen m t hs.pos.ne' j.b).a
  rw [← fa, ← fb] at r1 r2 e
  rw [e]
  simp only [Joint.getImpulse, DampedRotarySpring.getImpulse]
  rw [ha] at r1
  rw [hb] at r2
  have h1 := sub_right_injective r1
  have h2 := add_right_injective _ r2
  generalize (((m.bodies j.a).w - (m.bodies j.b).w - Real.exp (-j.damping * t.dt * ((m.bodies j.a).i_inv + (m.bodies j.b).i_inv)) *
    ((m.bodies j.a).w - (m.bodies j.b).w - ((m.bodies j.a).i_inv + (m.bodies j.b).i_inv) *
      (j.torque (((m.tick t).bodies j.a).a - ((m.tick t).bodies j.b).a) * t.dt))) / ((m.bodies j.a).i_inv + (m.bodies j.b).i_inv)) = J' at *
  have : J = J' := by
    have h3 : ((m.bodies j.a).i_inv + (m.bodies j.b).i_inv) * (J - J') = 0 := by
      have a1 : (m.bodies j.a).i_inv * J = (m.bodies j.a).i_inv * J' := h1
      have a2 : (m.bodies j.b).i_inv * J = (m.bodies j.b).i_inv * J' := h2
      linear_combination a1 + a2
    rcases mul_eq_zero.1 h3 with h | h
    · exact absurd h hi.ne'
    · linarith
  rw [this]
  ring


/-- **C61**, rotary spring, any number of steps: the angle moves by the relative spin, and the relative spin is then changed by the torque at the new
angle and damped. -/
theorem C61_rotary_swing {ms : Nat → Motion ℝ} {ts : Nat → Tick ℝ} {dt : ℝ} {k : Nat} {j : DampedRotarySpring ℝ} (S : Swinging ms ts dt k j.a j.b)
    (hj : (ms 0).joints k = .rotarySpring j) (htq : j.torque = DampedRotarySpring.defaultTorque j.restAngle j.stiffness)
    (hi : 0 < ((ms 0).bodies j.a).i_inv + ((ms 0).bodies j.b).i_inv) (n : Nat) :
    let off := fun n => ((ms n).bodies j.a).a - ((ms n).bodies j.b).a - j.restAngle
    let spin := fun n => ((ms n).bodies j.a).w - ((ms n).bodies j.b).w
    off (n + 1) = off n + spin n * dt ∧
    spin (n + 1) = Real.exp (-j.decay (ms 0).bodies dt) * (spin n - j.stiffness * (((ms 0).bodies j.a).i_inv + ((ms 0).bodies j.b).i_inv) * off (n + 1) * dt) := by
  intro off spin
  have o := rotary_osc S hj htq hi
  have hdt : 0 < dt := by rw [← S.length 0]; exact (S.sole 0).pos
  have h1 := o.x_succ n
  have h2 := o.y_succ n
  refine ⟨h1, ?_⟩
  have h3 : spin (n + 1) * dt = Real.exp (-j.decay (ms 0).bodies dt) * (spin n * dt - j.stiffness * (((ms 0).bodies j.a).i_inv + ((ms 0).bodies j.b).i_inv) * dt ^ 2 * off (n + 1)) := h2
  have := hdt.ne'
  apply mul_right_cancel₀ this
  rw [h3]; ring

/-- **C61**, rotary spring: a damped spring comes to rest at its rest angle, if it is not too stiff for the length of the steps. -/
theorem C61_rotary_settles {ms : Nat → Motion ℝ} {ts : Nat → Tick ℝ} {dt : ℝ} {k : Nat} {j : DampedRotarySpring ℝ} (S : Swinging ms ts dt k j.a j.b)
    (hj : (ms 0).joints k = .rotarySpring j) (htq : j.torque = DampedRotarySpring.defaultTorque j.restAngle j.stiffness)
    (hi : 0 < ((ms 0).bodies j.a).i_inv + ((ms 0).bodies j.b).i_inv) (hs : 0 < j.stiffness) (hd : 0 < j.damping)
    (hlim : j.strength (ms 0).bodies dt < 2 * (1 + Real.exp (j.decay (ms 0).bodies dt))) :
    Tendsto (fun n => ((ms n).bodies j.a).a - ((ms n).bodies j.b).a) atTop (𝓝 j.restAngle) ∧
    Tendsto (fun n => ((ms n).bodies j.a).w - ((ms n).bodies j.b).w) atTop (𝓝 0) := by
  have o := rotary_osc S hj htq hi
  have hdt : 0 < dt := by rw [← S.length 0]; exact (S.sole 0).pos
  have hdec : 0 < j.decay (ms 0).bodies dt := mul_pos (mul_pos hd hi) hdt
  obtain ⟨q, hq⟩ : ∃ q, q = Real.exp (-j.decay (ms 0).bodies dt) := ⟨_, rfl⟩
  have hq0 : 0 < q := by rw [hq]; exact Real.exp_pos _
  have hqe : q * Real.exp (j.decay (ms 0).bodies dt) = 1 := by rw [hq, ← Real.exp_add]; simp
  obtain ⟨h1, h2⟩ := o.settles (Real.exp_pos _).le (by rw [Real.exp_lt_one_iff]; exact neg_lt_zero.2 hdec)
    (mul_pos (Real.exp_pos _) (mul_pos (mul_pos hs hi) (pow_pos hdt 2))) (by
      change Real.exp (-j.decay (ms 0).bodies dt) * j.strength (ms 0).bodies dt < 2 * (1 + Real.exp (-j.decay (ms 0).bodies dt))
      rw [← hq]
      have := mul_lt_mul_of_pos_left hlim hq0
      nlinarith)
  constructor
  · have := h1.add_const j.restAngle
    rw [zero_add] at this
    exact this.congr fun n => by ring
  · have := h2.mul_const (1 / dt)
    rw [zero_mul] at this
    refine this.congr fun n => ?_
    have := hdt.ne'
    field_simp

/-- **C61**, rotary spring: the limit is sharp — released from rest anywhere else than at the rest angle, a spring at or above it never settles, -/
theorem C61_rotary_limit {ms : Nat → Motion ℝ} {ts : Nat → Tick ℝ} {dt : ℝ} {k : Nat} {j : DampedRotarySpring ℝ} (S : Swinging ms ts dt k j.a j.b)
    (hj : (ms 0).joints k = .rotarySpring j) (htq : j.torque = DampedRotarySpring.defaultTorque j.restAngle j.stiffness)
    (hi : 0 < ((ms 0).bodies j.a).i_inv + ((ms 0).bodies j.b).i_inv) (hd : 0 ≤ j.damping)
    (hw : ((ms 0).bodies j.a).w = ((ms 0).bodies j.b).w) (ha : ((ms 0).bodies j.a).a - ((ms 0).bodies j.b).a ≠ j.restAngle)
    (hlim : 2 * (1 + Real.exp (j.decay (ms 0).bodies dt)) ≤ j.strength (ms 0).bodies dt) :
    ¬ Tendsto (fun n => ((ms n).bodies j.a).a - ((ms n).bodies j.b).a) atTop (𝓝 j.restAngle) := by
  have o := rotary_osc S hj htq hi
  have hdt : 0 < dt := by rw [← S.length 0]; exact (S.sole 0).pos
  have hdec : 0 ≤ j.decay (ms 0).bodies dt := mul_nonneg (mul_nonneg hd hi.le) hdt.le
  obtain ⟨q, hq⟩ : ∃ q, q = Real.exp (-j.decay (ms 0).bodies dt) := ⟨_, rfl⟩
  have hq0 : 0 < q := by rw [hq]; exact Real.exp_pos _
  have hqe : q * Real.exp (j.decay (ms 0).bodies dt) = 1 := by rw [hq, ← Real.exp_add]; simp
  intro ht
  refine o.never_settles (Real.exp_pos _) (by rw [Real.exp_le_one_iff]; exact neg_nonpos.2 hdec) ?_ (by simp [hw]) (sub_ne_zero.2 ha) ?_
  · change 2 * (1 + Real.exp (-j.decay (ms 0).bodies dt)) ≤ Real.exp (-j.decay (ms 0).bodies dt) * j.strength (ms 0).bodies dt
    rw [← hq]
    have := mul_le_mul_of_nonneg_left hlim hq0.le
    nlinarith
  · have := ht.sub_const j.restAngle
    rw [sub_self] at this
    exact this

/-- … and above it swings ever wider, beyond any bound. -/
theorem C61_rotary_explodes {ms : Nat → Motion ℝ} {ts : Nat → Tick ℝ} {dt : ℝ} {k : Nat} {j : DampedRotarySpring ℝ} (S : Swinging ms ts dt k j.a j.b)
    (hj : (ms 0).joints k = .rotarySpring j) (htq : j.torque = DampedRotarySpring.defaultTorque j.restAngle j.stiffness)
    (hi : 0 < ((ms 0).bodies j.a).i_inv + ((ms 0).bodies j.b).i_inv) (hd : 0 ≤ j.damping)
    (hw : ((ms 0).bodies j.a).w = ((ms 0).bodies j.b).w) (ha : ((ms 0).bodies j.a).a - ((ms 0).bodies j.b).a ≠ j.restAngle)
    (hlim : 2 * (1 + Real.exp (j.decay (ms 0).bodies dt)) < j.strength (ms 0).bodies dt) (C : ℝ) :
    ∃ n, C < |((ms n).bodies j.a).a - ((ms n).bodies j.b).a - j.restAngle| := by
  have o := rotary_osc S hj htq hi
  have hdt : 0 < dt := by rw [← S.length 0]; exact (S.sole 0).pos
  have hdec : 0 ≤ j.decay (ms 0).bodies dt := mul_nonneg (mul_nonneg hd hi.le) hdt.le
  obtain ⟨q, hq⟩ : ∃ q, q = Real.exp (-j.decay (ms 0).bodies dt) := ⟨_, rfl⟩
  have hq0 : 0 < q := by rw [hq]; exact Real.exp_pos _
  have hqe : q * Real.exp (j.decay (ms 0).bodies dt) = 1 := by rw [hq, ← Real.exp_add]; simp
  refine o.explodes (Real.exp_pos _) (by rw [Real.exp_le_one_iff]; exact neg_nonpos.2 hdec) ?_ (by simp [hw]) (sub_ne_zero.2 ha) C
  change 2 * (1 + Real.exp (-j.decay (ms 0).bodies dt)) < Real.exp (-j.decay (ms 0).bodies dt) * j.strength (ms 0).bodies dt
  rw [← hq]
  have := mul_lt_mul_of_pos_left hlim hq0
  nlinarith

/-- **C61**, rotary spring without damping: below the limit, which is then 4, the swing stays within a bound for ever. -/
theorem C61_rotary_undamped {ms : Nat → Motion ℝ} {ts : Nat → Tick ℝ} {dt : ℝ} {k : Nat} {j : DampedRotarySpring ℝ} (S : Swinging ms ts dt k j.a j.b)
    (hj : (ms 0).joints k = .rotarySpring j) (htq : j.torque = DampedRotarySpring.defaultTorque j.restAngle j.stiffness)
    (hi : 0 < ((ms 0).bodies j.a).i_inv + ((ms 0).bodies j.b).i_inv) (hs : 0 < j.stiffness) (hd : j.damping = 0)
    (hlim : j.strength (ms 0).bodies dt < 4) (hw : ((ms 0).bodies j.a).w = ((ms 0).bodies j.b).w) (n : Nat) :
    (((ms n).bodies j.a).a - ((ms n).bodies j.b).a - j.restAngle) ^ 2 * (1 - j.strength (ms 0).bodies dt / 4) ≤
      (((ms 0).bodies j.a).a - ((ms 0).bodies j.b).a - j.restAngle) ^ 2 := by
  have o := rotary_osc S hj htq hi
  have hdt : 0 < dt := by rw [← S.length 0]; exact (S.sole 0).pos
  have e1 : Real.exp (-(j.damping * (((ms 0).bodies j.a).i_inv + ((ms 0).bodies j.b).i_inv) * dt)) = 1 := by rw [hd]; simp
  rw [e1] at o
  obtain ⟨s, hs'⟩ : ∃ s, s = j.strength (ms 0).bodies dt := ⟨_, rfl⟩
  have hs0 : 0 < s := by rw [hs']; exact mul_pos (mul_pos hs hi) (pow_pos hdt 2)
  have h1 := o.small (by rw [← DampedRotarySpring.strength, ← hs']; rw [← hs'] at hlim; nlinarith) n
  rw [← DampedRotarySpring.strength, ← hs'] at h1
  rw [← hs'] at hlim ⊢
  have hp : 0 < 1 * s - (1 - 1 + 1 * s) ^ 2 / 4 := by nlinarith
  rw [le_div_iff₀ hp] at h1
  simp only [Osc.level, hw, sub_self, zero_mul, mul_zero, add_zero, one_pow, one_mul, zero_add] at h1
  have : s * ((((ms n).bodies j.a).a - ((ms n).bodies j.b).a - j.restAngle) ^ 2 * (1 - s / 4)) ≤ s * (((ms 0).bodies j.a).a - ((ms 0).bodies j.b).a - j.restAngle) ^ 2 := by
    refine le_trans (le_of_eq ?_) (h1.trans (le_of_eq ?_))
    · ring
    · ring
  exact le_of_mul_le_mul_left this hs0

/-! ### The spring -/

/-- **C61**, spring, one step: if the spring alone acts on its bodies and its grips are apart, the step gives the bodies one impulse `J` along the
line between the grips and its opposite, and `GetImpulse` reports it. The speed with which the grips move apart becomes the share
`e^(-damping·dt·K)` of what the spring's force at the new length makes of it (`K`: what a unit impulse does to that speed) — however many
iterations the solver makes. -/
theorem C61_spring {m : Motion ℝ} {t : Tick ℝ} {k : Nat} {j : DampedSpring ℝ} (hs : t.Sole m k) (hk : m.joints k = .spring j) (hu : t.Unforced m k)
    (hg : t.gravity = ⟨0, 0⟩) (hsv : Solvable m.bodies j.a j.b) (hit : 0 < t.iterations) (hn : t.movers.Nodup)
    (ua : UpToDate m.bodies j.a) (ub : UpToDate m.bodies j.b) (hne : grip (m.seen t) j.a j.anchorA ≠ grip (m.seen t) j.b j.anchorB) :
    let h := m.seen t
    let h' := (m.tick t).bodies
    let gap := gripGap h j.a j.b j.anchorA j.anchorB
    let n := gap.mult (1 / gap.length)
    let ra := (grip h j.a j.anchorA).sub (h j.a).p
    let rb := (grip h j.b j.anchorB).sub (h j.b).p
    let K := yields h j.a j.b ra rb n
    let apart := fun h : Bodies ℝ => ((gripVel h j.b j.anchorB).sub (gripVel h j.a j.anchorA)).dot n
    ∃ J, Pulled h h' j.a j.b ra rb (n.mult J) ∧ ((m.tick t).joints k).getImpulse = J ∧
      apart h' = Real.exp (-j.damping * t.dt * K) * (apart h + K * (j.force gap.length * t.dt)) := by
  intro h h' gap n ra rb K apart
  have wa := seen_wf hn ua (t := t)
  have wb := seen_wf hn ub (t := t)
  have hdt := hs.pos.ne'
  have e : ∀ u v : Vec ℝ, (u.add v).sub u = v := by intro u v; ext <;> simp [Vec.add, Vec.sub]
  have hra : ra = anchorOffset (m.seen t j.a) j.anchorA := by simp only [ra, h]; rw [grip_eq wa, e]
  have hrb : rb = anchorOffset (m.seen t j.b) j.anchorB := by simp only [rb, h]; rw [grip_eq wb, e]
  have hδ : gap = ((m.seen t j.b).p.add rb).sub ((m.seen t j.a).p.add ra) := by
    simp only [gap, gripGap, h]; rw [grip_eq wa, grip_eq wb, hra, hrb]
  have h0 : gap.length ≠ 0 := by
    intro hz
    have h2 := gap.length_sq
    rw [hz] at h2
    simp only [Vec.dot] at h2
    have hx : gap.x = 0 := by nlinarith [sq_nonneg gap.x, sq_nonneg gap.y]
    have hy : gap.y = 0 := by nlinarith [sq_nonneg gap.x, sq_nonneg gap.y]
    apply hne
    simp only [gap, gripGap, Vec.sub] at hx hy
    ext
    · linarith
    · linarith
  obtain ⟨hK, hn1, hP, tg, hj⟩ := spring_tick hs hk hu hg hsv hit ra rb gap n hra hrb hδ h0 rfl
  have hy : yields m.bodies j.a j.b ra rb n = K := by
    simp only [K, yields, h, (seen_inertia m t _).1, (seen_inertia m t _).2]
  rw [hy] at hK hP hj
  have hu : normalRelVel m.bodies j.a j.b ra rb n = apart h := by
    simp only [apart, h]
    rw [← gripVel_rel wa wb, ← hra, ← hrb]
    obtain ⟨a1, a2, -⟩ := seen_v m t j.a
    obtain ⟨b1, b2, -⟩ := seen_v m t j.b
    simp only [normalRelVel, relVel, a1, a2, b1, b2]
  rw [hu] at hP hj
  refine ⟨_, ⟨?_, ?_, ?_, ?_⟩, by rw [hj], ?_⟩
  · have := hP.va
    rw [← (seen_v m t j.a).1, ← (seen_inertia m t j.a).1] at this; exact this
  · have := hP.wa
    rw [← (seen_v m t j.a).2.1, ← (seen_inertia m t j.a).2] at this; exact this
  · have := hP.vb
    rw [← (seen_v m t j.b).1, ← (seen_inertia m t j.b).1] at this; exact this
  · have := hP.wb
    rw [← (seen_v m t j.b).2.1, ← (seen_inertia m t j.b).2] at this; exact this
  · have r := hP.relVel hn1
    rw [hu, hy] at r
    have fa := tick_frozen m t hdt j.a
    have fb := tick_frozen m t hdt j.b
    have oa : anchorOffset ((m.tick t).bodies j.a) j.anchorA = ra := by rw [hra]; simp only [anchorOffset, fa.transform, fa.cog]
    have ob : anchorOffset ((m.tick t).bodies j.b) j.anchorB = rb := by rw [hrb]; simp only [anchorOffset, fb.transform, fb.cog]
    have : apart h' = normalRelVel (m.tick t).bodies j.a j.b ra rb n := by
      simp only [apart, h']
      rw [← gripVel_rel (fa.wf wa) (fb.wf wb), oa, ob, normalRelVel]
    rw [this, r]
    have := hK.ne'
    field_simp
    ring


/-- **C61**, violated: when the grips of a spring coincide it gives its bodies no impulse at all, whatever its force, and does not damp their motion; `GetImpulse`
reports the impulse of the force all the same. -/
theorem C61_coincident_violated {m : Motion ℝ} {t : Tick ℝ} {k : Nat} {j : DampedSpring ℝ} (hs : t.Sole m k) (hk : m.joints k = .spring j) (hu : t.Unforced m k)
    (hg : t.gravity = ⟨0, 0⟩) (hn : t.movers.Nodup)
    (ua : UpToDate m.bodies j.a) (ub : UpToDate m.bodies j.b) (heq : grip (m.seen t) j.a j.anchorA = grip (m.seen t) j.b j.anchorB) :
    (∀ x, x = j.a ∨ x = j.b → ((m.tick t).bodies x).v = (m.bodies x).v ∧ ((m.tick t).bodies x).w = (m.bodies x).w) ∧
    ((m.tick t).joints k).getImpulse = j.force 0 * t.dt := by
  have wa := seen_wf hn ua (t := t)
  have wb := seen_wf hn ub (t := t)
  rw [grip_eq wa, grip_eq wb] at heq
  obtain ⟨hj, hb⟩ := sole_tick hs
  have hA := hb j.a (by rw [hk]; exact .inl rfl)
  have hB := hb j.b (by rw [hk]; exact .inr rfl)
  have z : ∀ v : Vec ℝ, v.sub v = ⟨0, 0⟩ := by intro v; simp [Vec.sub]
  have zl : (⟨0, 0⟩ : Vec ℝ).length = 0 := by simp [Vec.length, Vec.dot, instGoFloatReal]
  have zm : ∀ c : ℝ, (⟨0, 0⟩ : Vec ℝ).mult c = ⟨0, 0⟩ := by intro c; simp [Vec.mult]
  obtain ⟨jp, hjp⟩ : ∃ jp, jp = (j.preStep (m.seen t) t.dt).2 := ⟨_, rfl⟩
  have hp1 : (j.preStep (m.seen t) t.dt).1 = m.seen t := by
    simp only [DampedSpring.preStep, heq, z, zl, zm, ite_self]
    exact applyImpulses_zero _ _ _ _ _ _ rfl rfl
  have hjn : jp.n = ⟨0, 0⟩ ∧ jp.jAcc = j.force 0 * t.dt ∧ jp.targetVrn = 0 ∧ jp.a = j.a ∧ jp.b = j.b := by
    rw [hjp]
    refine ⟨?_, ?_, rfl, rfl, rfl⟩
    · simp only [DampedSpring.preStep, heq, z, zm, ite_self]
    · simp only [DampedSpring.preStep, heq, z, zl]
  have hset : soleSetup m t k = ((soleSetup m t k).1, .spring jp) := by
    refine Prod.ext rfl ?_
    simp only [soleSetup, hk, Joint.preStep, Prod.map, Joint.applyCached, DampedSpring.applyCached, id, ← hjp]
  have h2 : ∀ x, (soleSetup m t k).1 x = if x ∈ t.dyn then (m.seen t x).updateVelocity t.gravity (t.damping ^ t.dt) t.dt else m.seen t x := by
    intro x
    simp only [soleSetup, hk, Joint.preStep, Prod.map, Joint.applyCached, DampedSpring.applyCached, id, hp1]
  have fix : jp.targetVrn = normalRelVel (soleSetup m t k).1 jp.a jp.b jp.r1 jp.r2 jp.n := by
    rw [hjn.1, hjn.2.2.1]
    simp [normalRelVel, Vec.dot]
  have hrun : soleRun t.dt t.iterations (soleSetup m t k) = ((soleSetup m t k).1, .spring jp) := by
    rw [hset]; exact spring_runs t.dt _ jp fix _
  rw [hrun] at hj hA hB
  have fin : ∀ x, x = j.a ∨ x = j.b → ((soleSetup m t k).1 x).v = (m.bodies x).v ∧ ((soleSetup m t k).1 x).w = (m.bodies x).w := by
    intro x hx
    obtain ⟨c1, c2, c3, c4, -⟩ := seen_v m t x
    obtain ⟨fx, tx⟩ := hu.forces x (by rw [hk]; exact hx)
    rw [h2, hu.damping, Real.one_rpow, hg]
    split
    · obtain ⟨u1, u2, -⟩ := updateVelocity_unforced (m.seen t x) ⟨0, 0⟩ t.dt (by rw [c3, fx]) (by rw [c4, tx])
      exact ⟨(u2 rfl).trans c1, u1.trans c2⟩
    · exact ⟨c1, c2⟩
  refine ⟨?_, by rw [hj]; exact hjn.2.1⟩
  rintro x (rfl | rfl)
  · rw [hA]; exact fin _ (.inl rfl)
  · rw [hB]; exact fin _ (.inr rfl)

/-- A spring between the centres of gravity of two bodies that start to move along the line between them, in a world without gravity. -/
structure OnLineSpring (ms : Nat → Motion ℝ) (ts : Nat → Tick ℝ) (dt : ℝ) (k : Nat) (j : DampedSpring ℝ) (e : Vec ℝ) : Prop where
  swinging : Swinging ms ts dt k j.a j.b
  joint : (ms 0).joints k = .spring j
  hooke : j.force = DampedSpring.defaultForce j.restLength j.stiffness
  gravity : ∀ n, (ts n).gravity = ⟨0, 0⟩
  solvable : Solvable (ms 0).bodies j.a j.b
  anchorA : j.anchorA = ((ms 0).bodies j.a).cog
  anchorB : j.anchorB = ((ms 0).bodies j.b).cog
  unit : e.dot e = 1
  start : ∃ d u, Lined (ms 0).bodies j.a j.b e d u

theorem OnLineSpring.zero {ms : Nat → Motion ℝ} {ts : Nat → Tick ℝ} {dt : ℝ} {k : Nat} {j : DampedSpring ℝ} {e : Vec ℝ} (S : OnLineSpring ms ts dt k j e) : OnTrack ms k j e 0 := by
  obtain ⟨d, u, h⟩ := S.start
  obtain ⟨m1, m2⟩ := h.measure S.unit
  exact ⟨⟨j, S.joint, rfl, rfl, rfl, rfl, S.anchorA, S.anchorB⟩, by rw [m1, m2]; exact h⟩

theorem OnLineSpring.all {ms : Nat → Motion ℝ} {ts : Nat → Tick ℝ} {dt : ℝ} {k : Nat} {j : DampedSpring ℝ} {e : Vec ℝ} (S : OnLineSpring ms ts dt k j e)
    (hpos : ∀ n, 0 < distAlong (ms n).bodies j.a j.b e) : ∀ n, OnTrack ms k j e n
  | 0 => S.zero
  | n + 1 => ((S.all hpos n).next S.swinging S.joint S.gravity S.solvable S.hooke S.unit (hpos (n + 1))).1

theorem OnLineSpring.osc {ms : Nat → Motion ℝ} {ts : Nat → Tick ℝ} {dt : ℝ} {k : Nat} {j : DampedSpring ℝ} {e : Vec ℝ} (S : OnLineSpring ms ts dt k j e)
    (hpos : ∀ n, 0 < distAlong (ms n).bodies j.a j.b e) : Osc (j.strength (ms 0).bodies dt) (Real.exp (-j.decay (ms 0).bodies dt))
      (fun n => distAlong (ms n).bodies j.a j.b e - j.restLength) (fun n => speedAlong (ms n).bodies j.a j.b e * dt) :=
  fun n => ((S.all hpos n).next S.swinging S.joint S.gravity S.solvable S.hooke S.unit (hpos (n + 1))).2

/-- **C61**, spring, any number of steps along a line: as long as the bodies do not pass each other, they stay on the line, their distance changes by
their relative speed, and the speed is then changed by the spring's force at the new distance and damped. -/
theorem C61_line {ms : Nat → Motion ℝ} {ts : Nat → Tick ℝ} {dt : ℝ} {k : Nat} {j : DampedSpring ℝ} {e : Vec ℝ} (S : OnLineSpring ms ts dt k j e)
    (hpos : ∀ n, 0 < distAlong (ms n).bodies j.a j.b e) (n : Nat) :
    let d := fun n => distAlong (ms n).bodies j.a j.b e
    let u := fun n => speedAlong (ms n).bodies j.a j.b e
    Lined (ms n).bodies j.a j.b e (d n) (u n) ∧ d (n + 1) = d n + u n * dt ∧
    u (n + 1) = Real.exp (-j.decay (ms 0).bodies dt) * (u n + (((ms 0).bodies j.a).m_inv + ((ms 0).bodies j.b).m_inv) * ((j.restLength - d (n + 1)) * j.stiffness) * dt) := by
  intro d u
  have o := S.osc hpos
  have hdt : 0 < dt := by rw [← S.swinging.length 0]; exact (S.swinging.sole 0).pos
  have h1 : d (n + 1) - j.restLength = d n - j.restLength + u n * dt := o.x_succ n
  have h2 : u (n + 1) * dt = Real.exp (-j.decay (ms 0).bodies dt) * (u n * dt - j.strength (ms 0).bodies dt * (d (n + 1) - j.restLength)) := o.y_succ n
  refine ⟨(S.all hpos n).lined, by linarith, ?_⟩
  apply mul_right_cancel₀ hdt.ne'
  rw [h2, DampedSpring.strength]; ring

/-- **C61**, spring: a damped spring comes to rest at its rest length, if it is not too stiff for the length of the steps (and the bodies do not pass
each other). -/
theorem C61_settles {ms : Nat → Motion ℝ} {ts : Nat → Tick ℝ} {dt : ℝ} {k : Nat} {j : DampedSpring ℝ} {e : Vec ℝ} (S : OnLineSpring ms ts dt k j e)
    (hpos : ∀ n, 0 < distAlong (ms n).bodies j.a j.b e) (hs : 0 < j.stiffness) (hd : 0 < j.damping)
    (hlim : j.strength (ms 0).bodies dt < 2 * (1 + Real.exp (j.decay (ms 0).bodies dt))) :
    Tendsto (fun n => ((ms n).bodies j.a).p.distance ((ms n).bodies j.b).p) atTop (𝓝 j.restLength) ∧
    Tendsto (fun n => ((ms n).bodies j.a).v.distance ((ms n).bodies j.b).v) atTop (𝓝 0) := by
  have o := S.osc hpos
  have hdt : 0 < dt := by rw [← S.swinging.length 0]; exact (S.swinging.sole 0).pos
  have hdec : 0 < j.decay (ms 0).bodies dt := mul_pos (mul_pos hd S.solvable.m) hdt
  obtain ⟨q, hq⟩ : ∃ q, q = Real.exp (-j.decay (ms 0).bodies dt) := ⟨_, rfl⟩
  have hq0 : 0 < q := by rw [hq]; exact Real.exp_pos _
  have hqe : q * Real.exp (j.decay (ms 0).bodies dt) = 1 := by rw [hq, ← Real.exp_add]; simp
  obtain ⟨h1, h2⟩ := o.settles (Real.exp_pos _).le (by rw [Real.exp_lt_one_iff]; exact neg_lt_zero.2 hdec)
    (mul_pos (Real.exp_pos _) (mul_pos (mul_pos hs S.solvable.m) (pow_pos hdt 2))) (by
      rw [← hq]
      have := mul_lt_mul_of_pos_left hlim hq0
      nlinarith)
  constructor
  · have := h1.add_const j.restLength
    rw [zero_add] at this
    refine this.congr fun n => ?_
    rw [← sub_length, (S.all hpos n).lined.p, length_unit S.unit (hpos n)]
    ring
  · have := (h2.mul_const (1 / dt)).abs
    rw [zero_mul, abs_zero] at this
    refine this.congr fun n => ?_
    rw [← sub_length, (S.all hpos n).lined.v, Vec.length_mult]
    have he : e.length = 1 := by
      have h := e.length_sq
      rw [S.unit] at h
      have h3 : 0 ≤ e.length := by simp only [Vec.length]; exact Real.sqrt_nonneg _
      nlinarith
    rw [he, one_mul]
    congr 1
    have := hdt.ne'
    field_simp

/-- **C61**, spring: a spring that is not too stiff and is let go from rest, not too far off its rest length, never lets the bodies pass each other, and
its swing stays within a bound that shrinks with the damping. -/
theorem C61_bounded {ms : Nat → Motion ℝ} {ts : Nat → Tick ℝ} {dt : ℝ} {k : Nat} {j : DampedSpring ℝ} {e : Vec ℝ} (S : OnLineSpring ms ts dt k j e)
    (h0 : speedAlong (ms 0).bodies j.a j.b e = 0) (hd : 0 ≤ j.damping) (hL : 0 < j.restLength)
    (q s : ℝ) (hq : q = Real.exp (-j.decay (ms 0).bodies dt)) (hs : s = j.strength (ms 0).bodies dt) (hlim : (1 - q + q * s) ^ 2 < 4 * (q * s))
    (hsmall : 4 * (q * s) * (distAlong (ms 0).bodies j.a j.b e - j.restLength) ^ 2 < (4 * (q * s) - (1 - q + q * s) ^ 2) * j.restLength ^ 2) (n : Nat) :
    0 < distAlong (ms n).bodies j.a j.b e ∧
    (4 * (q * s) - (1 - q + q * s) ^ 2) * (distAlong (ms n).bodies j.a j.b e - j.restLength) ^ 2 ≤ q ^ n * (4 * (q * s) * (distAlong (ms 0).bodies j.a j.b e - j.restLength) ^ 2) := by
  have hdt : 0 < dt := by rw [← S.swinging.length 0]; exact (S.swinging.sole 0).pos
  have hdec : 0 ≤ j.decay (ms 0).bodies dt := mul_nonneg (mul_nonneg hd S.solvable.m.le) hdt.le
  have hq0 : 0 < q := by rw [hq]; exact Real.exp_pos _
  have hq1 : q ≤ 1 := by rw [hq, Real.exp_le_one_iff]; exact neg_nonpos.2 hdec
  obtain ⟨Δ, hΔ⟩ : ∃ Δ, Δ = 4 * (q * s) - (1 - q + q * s) ^ 2 := ⟨_, rfl⟩
  have hΔ0 : 0 < Δ := by rw [hΔ]; linarith
  obtain ⟨x0, hx0⟩ : ∃ x0, x0 = distAlong (ms 0).bodies j.a j.b e - j.restLength := ⟨_, rfl⟩
  rw [← hΔ, ← hx0] at hsmall
  have hqs : 0 < q * s := by
    by_contra hc
    push Not at hc
    nlinarith [sq_nonneg (1 - q + q * s)]
  have hE : 0 ≤ 4 * (q * s) * x0 ^ 2 := by positivity
  have near : ∀ x : ℝ, Δ * x ^ 2 ≤ 4 * (q * s) * x0 ^ 2 → 0 < x + j.restLength := by
    intro x hx
    have : x ^ 2 < j.restLength ^ 2 := by
      have : Δ * x ^ 2 < Δ * j.restLength ^ 2 := lt_of_le_of_lt hx hsmall
      exact lt_of_mul_lt_mul_left this hΔ0.le
    have := (abs_lt_of_sq_lt_sq this hL.le)
    linarith [(abs_lt.1 this).1]
  have hl0 : 4 * Osc.level s q x0 0 = 4 * (q * s) * x0 ^ 2 := by simp only [Osc.level]; ring
  have key : ∀ n, OnTrack ms k j e n ∧ Osc.level s q (distAlong (ms n).bodies j.a j.b e - j.restLength) (speedAlong (ms n).bodies j.a j.b e * dt) = q ^ n * Osc.level s q x0 0 := by
    intro n
    induction n with
    | zero => exact ⟨S.zero, by rw [h0, ← hx0]; simp⟩
    | succ n ih =>
      obtain ⟨i1, i2⟩ := ih
      have hcon : ∀ n, ((ms n).joints k).con.a = j.a ∧ ((ms n).joints k).con.b = j.b := by
        intro n; rw [S.swinging.con n, S.joint]; exact ⟨rfl, rfl⟩
      have hn := along_next S.swinging (S.swinging.at hcon n) e
      have ha := Osc.level_ahead s q (distAlong (ms n).bodies j.a j.b e - j.restLength) (speedAlong (ms n).bodies j.a j.b e * dt) hq0
      rw [i2, ← hΔ] at ha
      have hpn : q * q ^ n ≤ 1 := by
        rw [← pow_succ']
        exact pow_le_one₀ hq0.le hq1
      have hpos : 0 < distAlong (ms (n + 1)).bodies j.a j.b e := by
        have := near _ (ha.trans (by
          have h2 : 4 * q * (q ^ n * Osc.level s q x0 0) = (q * q ^ n) * (4 * Osc.level s q x0 0) := by ring
          rw [h2, hl0]
          exact mul_le_of_le_one_left hE hpn))
        rw [hn]; linarith
      obtain ⟨r1, r2⟩ := i1.next S.swinging S.joint S.gravity S.solvable S.hooke S.unit hpos
      refine ⟨r1, ?_⟩
      have e1 : (distAlong (ms (n + 1)).bodies j.a j.b e - j.restLength, speedAlong (ms (n + 1)).bodies j.a j.b e * dt) =
          springStep s q (distAlong (ms n).bodies j.a j.b e - j.restLength) (speedAlong (ms n).bodies j.a j.b e * dt) := by rw [hs, hq]; exact r2
      have a1 := congrArg Prod.fst e1
      have a2 := congrArg Prod.snd e1
      simp only [springStep] at a1 a2
      rw [a1, a2, pow_succ]
      have : Osc.level s q (distAlong (ms n).bodies j.a j.b e - j.restLength + speedAlong (ms n).bodies j.a j.b e * dt)
          (q * (speedAlong (ms n).bodies j.a j.b e * dt - s * (distAlong (ms n).bodies j.a j.b e - j.restLength + speedAlong (ms n).bodies j.a j.b e * dt))) =
          q * Osc.level s q (distAlong (ms n).bodies j.a j.b e - j.restLength) (speedAlong (ms n).bodies j.a j.b e * dt) := by
        simp only [Osc.level]; ring
      rw [this, i2]; ring
  obtain ⟨-, k2⟩ := key n
  have h1 := Osc.level_ge s q (distAlong (ms n).bodies j.a j.b e - j.restLength) (speedAlong (ms n).bodies j.a j.b e * dt)
  rw [k2] at h1
  have h2 : Δ * (distAlong (ms n).bodies j.a j.b e - j.restLength) ^ 2 ≤ q ^ n * (4 * (q * s) * x0 ^ 2) := by
    rw [← hl0, hΔ]; linarith
  refine ⟨?_, by rw [← hΔ, ← hx0]; exact h2⟩
  have := near _ (h2.trans (mul_le_of_le_one_left hE (pow_le_one₀ hq0.le hq1)))
  linarith

/-- **C61**, spring: too stiff for the length of the steps, and let go from rest anywhere else than at its rest length, the spring throws the bodies
through each other. -/
theorem C61_too_stiff {ms : Nat → Motion ℝ} {ts : Nat → Tick ℝ} {dt : ℝ} {k : Nat} {j : DampedSpring ℝ} {e : Vec ℝ} (S : OnLineSpring ms ts dt k j e)
    (h0 : speedAlong (ms 0).bodies j.a j.b e = 0) (hd : 0 ≤ j.damping) (hx : distAlong (ms 0).bodies j.a j.b e ≠ j.restLength)
    (hlim : 2 * (1 + Real.exp (j.decay (ms 0).bodies dt)) < j.strength (ms 0).bodies dt) :
    ∃ n, distAlong (ms n).bodies j.a j.b e ≤ 0 := by
  by_contra hc
  push Not at hc
  have o := S.osc hc
  have hdt : 0 < dt := by rw [← S.swinging.length 0]; exact (S.swinging.sole 0).pos
  have hdec : 0 ≤ j.decay (ms 0).bodies dt := mul_nonneg (mul_nonneg hd S.solvable.m.le) hdt.le
  obtain ⟨q, hq⟩ : ∃ q, q = Real.exp (-j.decay (ms 0).bodies dt) := ⟨_, rfl⟩
  have hq0 : 0 < q := by rw [hq]; exact Real.exp_pos _
  have hqe : q * Real.exp (j.decay (ms 0).bodies dt) = 1 := by rw [hq, ← Real.exp_add]; simp
  obtain ⟨n, hn⟩ := o.crosses (Real.exp_pos _) (by rw [Real.exp_le_one_iff]; exact neg_nonpos.2 hdec) (by
    rw [← hq]
    have := mul_lt_mul_of_pos_left hlim hq0
    nlinarith) (by simp [h0]) (sub_ne_zero.2 hx) j.restLength
  have := hc n
  linarith

end CP
