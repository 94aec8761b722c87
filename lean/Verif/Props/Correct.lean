import Verif.Proofs.Correct3
import Mathlib.Analysis.SpecificLimits.Basic

/-! # C57: joints correct their errors -/

namespace CP
open GoFloat

/-! ### What `leftover` means -/

/-- **C57**: if the limit does not bind, the share `r` is left. -/
theorem C57_leftover_free (r c e : ℝ) (h : |(1 - r) * e| ≤ c) : leftover r c e = r * e := by
  obtain ⟨h1, h2⟩ := abs_le.1 h
  rw [leftover, min_eq_left h2, max_eq_right h1]
  ring

/-- **C57**: an error never grows nor changes its sign; if it is corrected at all it gets smaller. -/
theorem C57_leftover_shrinks (r c e : ℝ) (h0 : 0 ≤ r) (h1 : r ≤ 1) (hc : 0 ≤ c) :
    |leftover r c e| ≤ |e| ∧ 0 ≤ e * leftover r c e ∧ (r < 1 → 0 < c → e ≠ 0 → |leftover r c e| < |e|) := by
  have key : ∀ e, 0 ≤ e → 0 ≤ leftover r c e ∧ leftover r c e ≤ e ∧ (r < 1 → 0 < c → e ≠ 0 → leftover r c e < e) := by
    intro e he
    have hy : 0 ≤ (1 - r) * e := mul_nonneg (by linarith) he
    have hm : 0 ≤ min ((1 - r) * e) c := le_min hy hc
    rw [leftover, max_eq_right (by linarith)]
    refine ⟨?_, by linarith, fun hr hc' hne => ?_⟩
    · have : min ((1 - r) * e) c ≤ (1 - r) * e := min_le_left _ _
      nlinarith [mul_nonneg h0 he]
    · have : 0 < min ((1 - r) * e) c := lt_min (mul_pos (by linarith) (lt_of_le_of_ne he (Ne.symm hne))) hc'
      linarith
  rcases le_total 0 e with he | he
  · obtain ⟨k1, k2, k3⟩ := key e he
    rw [abs_of_nonneg k1, abs_of_nonneg he]
    exact ⟨k2, mul_nonneg he k1, k3⟩
  · obtain ⟨k1, k2, k3⟩ := key (-e) (by linarith)
    rw [leftover_neg r c e hc] at k1 k2 k3
    rw [abs_of_nonpos (by linarith), abs_of_nonpos he]
    exact ⟨k2, mul_nonneg_of_nonpos_of_nonpos he (by linarith), fun a b c => k3 a b (by simpa using c)⟩

/-! ### Gears and motors -/

/-- **C57**, gear: a step in which the gear has the last word and `MaxForce` does not bind leaves, when the joint next looks, the share
`errorBias^dt` of the error (less if `MaxBias` binds), plus what contacts turn the bodies to push them apart. -/
theorem C57_gear (m : Motion ℝ) (t t' : Tick ℝ) (k : Nat) (j : GearJoint ℝ) (hk : m.joints k = .gear j) (hab : j.a ≠ j.b)
    (hdt : 0 < t.dt) (hdt' : t'.dt = t.dt) (hl : t.LastWord m k) (hr : j.ratio ≠ 0) (hri : j.ratio_inv = 1 / j.ratio)
    (hi : (m.bodies j.a).i_inv * j.ratio_inv + j.ratio * (m.bodies j.b).i_inv ≠ 0) (hM : 0 ≤ j.maxBias)
    (ha : t'.Carries (m.tick t).bodies j.a) (hb : t'.Carries (m.tick t).bodies j.b)
    (hlim : ((m.tick t).joints k).getImpulse < j.maxForce * t.dt) :
    gearError ((m.tick t).seen t') j =
      leftover (j.errorBias ^ t.dt) (j.maxBias * t.dt) (gearError (m.seen t) j) + biasTurn (m.tick t).bodies j.a j.b j.ratio t.dt := by
  obtain ⟨h, j', hf, hc, e1, e2, e3⟩ := last_word m t k hdt.ne' hl
  rw [hk] at hc e2 e3
  obtain ⟨acc, rfl⟩ := core_gear (g := (j.preStep (m.seen t) t.dt).2) hc
  rw [e1] at hlim
  have hs := C19_gear t.dt j (m.seen t) h hab (frozen_same hf _ _) hr hri acc
    (by rw [(seen_inertia m t _).2, (seen_inertia m t _).2]; exact hi) _ rfl hlim
  have e2' : (m.tick t).bodies j.a = (GearJoint.applyImpulse h { (j.preStep (m.seen t) t.dt).2 with jAcc := acc } t.dt).1 j.a := e2
  have e3' : (m.tick t).bodies j.b = (GearJoint.applyImpulse h { (j.preStep (m.seen t) t.dt).2 with jAcc := acc } t.dt).1 j.b := e3
  rw [← e2', ← e3'] at hs
  have hbias : (j.preStep (m.seen t) t.dt).2.bias = clamp (-(1 - j.errorBias ^ t.dt) * gearError (m.seen t) j / t.dt) (-j.maxBias) j.maxBias := rfl
  have hs' : ((m.tick t).bodies j.b).w * j.ratio - ((m.tick t).bodies j.a).w = (j.preStep (m.seen t) t.dt).2.bias := hs
  have := clamp_bias (j.errorBias ^ t.dt) (gearError (m.seen t) j) j.maxBias t.dt hdt hM
  rw [← hbias, ← hs'] at this
  rw [← this]
  simp only [gearError, biasTurn]
  rw [carried_angle ha, carried_angle hb, hdt', (tick_frozen m t hdt.ne' j.a).a, (tick_frozen m t hdt.ne' j.b).a]
  ring

/-- **C57**, motor: the bodies turn against each other by `rate * dt`. -/
theorem C57_motor (m : Motion ℝ) (t t' : Tick ℝ) (k : Nat) (j : SimpleMotor ℝ) (hk : m.joints k = .motor j) (hab : j.a ≠ j.b)
    (hdt : 0 < t.dt) (hdt' : t'.dt = t.dt) (hl : t.LastWord m k) (hi : (m.bodies j.a).i_inv + (m.bodies j.b).i_inv ≠ 0)
    (ha : t'.Carries (m.tick t).bodies j.a) (hb : t'.Carries (m.tick t).bodies j.b)
    (hlim : ((m.tick t).joints k).getImpulse < j.maxForce * t.dt) :
    relAngle ((m.tick t).seen t') j.a j.b = relAngle (m.seen t) j.a j.b - j.rate * t.dt + biasTurn (m.tick t).bodies j.a j.b 1 t.dt := by
  obtain ⟨h, j', hf, hc, e1, e2, e3⟩ := last_word m t k hdt.ne' hl
  rw [hk] at hc e2 e3
  obtain ⟨acc, rfl⟩ := core_motor (g := (j.preStep (m.seen t) t.dt).2) hc
  rw [e1] at hlim
  have hs := C19_motor t.dt j (m.seen t) h hab (frozen_same hf _ _)
    (by rw [(seen_inertia m t _).2, (seen_inertia m t _).2]; exact hi) acc _ rfl hlim
  have e2' : (m.tick t).bodies j.a = (SimpleMotor.applyImpulse h { (j.preStep (m.seen t) t.dt).2 with jAcc := acc } t.dt).1 j.a := e2
  have e3' : (m.tick t).bodies j.b = (SimpleMotor.applyImpulse h { (j.preStep (m.seen t) t.dt).2 with jAcc := acc } t.dt).1 j.b := e3
  rw [← e2', ← e3'] at hs
  simp only [relAngle, biasTurn]
  rw [carried_angle ha, carried_angle hb, hdt', (tick_frozen m t hdt.ne' j.a).a, (tick_frozen m t hdt.ne' j.b).a]
  linear_combination t.dt * hs

/-! ### Limits -/

/-- **C57**, rotary limit: outside its range, a step in which the joint has the last word and `MaxForce` does not bind leaves at most the
share `errorBias^dt` of the excess, and exactly that if the joint had to push. -/
theorem C57_limit (m : Motion ℝ) (t t' : Tick ℝ) (k : Nat) (j : RotaryLimitJoint ℝ) (hk : m.joints k = .rotaryLimit j) (hab : j.a ≠ j.b)
    (hdt : 0 < t.dt) (hdt' : t'.dt = t.dt) (hl : t.LastWord m k) (hi : 0 < (m.bodies j.a).i_inv + (m.bodies j.b).i_inv)
    (hM : 0 < j.maxBias) (hr : j.errorBias ^ t.dt < 1) (hmm : j.min ≤ j.max)
    (ha : t'.Carries (m.tick t).bodies j.a) (hb : t'.Carries (m.tick t).bodies j.b)
    (hlim : ((m.tick t).joints k).getImpulse < j.maxForce * t.dt) :
    let d := relAngle (m.seen t) j.a j.b
    let d' := relAngle ((m.tick t).seen t') j.a j.b - biasTurn (m.tick t).bodies j.a j.b 1 t.dt
    let left := leftover (j.errorBias ^ t.dt) (j.maxBias * t.dt)
    (j.max < d → d' - j.max ≤ left (d - j.max) ∧ (0 < ((m.tick t).joints k).getImpulse → d' - j.max = left (d - j.max))) ∧
    (d < j.min → j.min - d' ≤ left (j.min - d) ∧ (0 < ((m.tick t).joints k).getImpulse → j.min - d' = left (j.min - d))) := by
  intro d d' left
  obtain ⟨h, j', hf, hc, e1, e2, e3⟩ := last_word m t k hdt.ne' hl
  rw [hk] at hc e2 e3
  obtain ⟨acc, rfl⟩ := core_limit (g := (j.preStep (m.seen t) t.dt).2) hc
  rw [e1] at hlim
  obtain ⟨s1, s2, s3⟩ := limit_spin t.dt j (m.seen t) h hab (frozen_same hf _ _)
    (by rw [(seen_inertia m t _).2, (seen_inertia m t _).2]; exact hi) acc _ rfl hlim
  have e2' : (m.tick t).bodies j.a = (RotaryLimitJoint.applyImpulse h { (j.preStep (m.seen t) t.dt).2 with jAcc := acc } t.dt).1 j.a := e2
  have e3' : (m.tick t).bodies j.b = (RotaryLimitJoint.applyImpulse h { (j.preStep (m.seen t) t.dt).2 with jAcc := acc } t.dt).1 j.b := e3
  rw [← e2', ← e3'] at s1 s2 s3
  have hd' : d' = d + (((m.tick t).bodies j.b).w - ((m.tick t).bodies j.a).w) * t.dt := by
    simp only [d', d, relAngle, biasTurn]
    rw [carried_angle ha, carried_angle hb, hdt', (tick_frozen m t hdt.ne' j.a).a, (tick_frozen m t hdt.ne' j.b).a]
    ring
  have hbias : (j.preStep (m.seen t) t.dt).2.bias = clamp (-(1 - j.errorBias ^ t.dt) *
      (if j.max < d then j.max - d else if d < j.min then j.min - d else 0) / t.dt) (-j.maxBias) j.maxBias := rfl
  have s1' : 0 < (j.preStep (m.seen t) t.dt).2.bias → ((m.tick t).bodies j.b).w - ((m.tick t).bodies j.a).w ≤ -(j.preStep (m.seen t) t.dt).2.bias := s1
  have s2' : (j.preStep (m.seen t) t.dt).2.bias < 0 → -(j.preStep (m.seen t) t.dt).2.bias ≤ ((m.tick t).bodies j.b).w - ((m.tick t).bodies j.a).w := s2
  have s3' : (j.preStep (m.seen t) t.dt).2.bias ≠ 0 → 0 < ((m.tick t).joints k).getImpulse →
    ((m.tick t).bodies j.b).w - ((m.tick t).bodies j.a).w = -(j.preStep (m.seen t) t.dt).2.bias := fun hb hp => s3 hb (by rw [e1] at hp; exact hp)
  clear s1 s2 s3
  have hMd : 0 < j.maxBias * t.dt := mul_pos hM hdt
  generalize (j.preStep (m.seen t) t.dt).2.bias = B at *
  generalize ((m.tick t).bodies j.b).w - ((m.tick t).bodies j.a).w = w at *
  have hsize : ∀ e, 0 < e → leftover (j.errorBias ^ t.dt) (j.maxBias * t.dt) e < e := by
    intro e he
    have : 0 < min ((1 - j.errorBias ^ t.dt) * e) (j.maxBias * t.dt) := lt_min (mul_pos (by linarith) he) hMd
    rw [leftover, max_eq_right (by linarith)]
    linarith
  constructor
  · intro hmax
    rw [if_pos hmax] at hbias
    have hcb := clamp_bias (j.errorBias ^ t.dt) (j.max - d) j.maxBias t.dt hdt hM.le
    rw [← hbias] at hcb
    have hneg := leftover_neg (j.errorBias ^ t.dt) (j.maxBias * t.dt) (d - j.max) hMd.le
    rw [neg_sub] at hneg
    have hlt := hsize (d - j.max) (by linarith)
    have hB : 0 < B := by
      have : 0 < B * t.dt := by linarith
      exact (mul_pos_iff_of_pos_right hdt).1 this
    simp only [left]
    constructor
    · nlinarith [mul_le_mul_of_nonneg_right (s1' hB) hdt.le]
    · intro hp
      rw [hd', s3' hB.ne' hp]
      linarith
  · intro hmin
    rw [if_neg (by linarith), if_pos hmin] at hbias
    have hcb := clamp_bias (j.errorBias ^ t.dt) (j.min - d) j.maxBias t.dt hdt hM.le
    rw [← hbias] at hcb
    have hlt := hsize (j.min - d) (by linarith)
    have hB : B < 0 := by
      have : B * t.dt < 0 := by linarith
      by_contra hz
      exact absurd this (not_lt.2 (mul_nonneg (not_lt.1 hz) hdt.le))
    simp only [left]
    constructor
    · nlinarith [mul_le_mul_of_nonneg_right (s2' hB) hdt.le]
    · intro hp
      rw [hd', s3' hB.ne hp]
      linarith

/-- **C57**, ratchet: behind its last notch, a step in which the joint has the last word and `MaxForce` does not bind leaves at most the
share `errorBias^dt` of the distance to the notch, and exactly that if the joint had to push. (Distances are measured along the
direction of the ratchet.) -/
theorem C57_ratchet (m : Motion ℝ) (t t' : Tick ℝ) (k : Nat) (j : RatchetJoint ℝ) (hk : m.joints k = .ratchet j) (hab : j.a ≠ j.b)
    (hdt : 0 < t.dt) (hdt' : t'.dt = t.dt) (hl : t.LastWord m k) (hi : 0 < (m.bodies j.a).i_inv + (m.bodies j.b).i_inv)
    (hM : 0 < j.maxBias) (hr : j.errorBias ^ t.dt < 1)
    (ha : t'.Carries (m.tick t).bodies j.a) (hb : t'.Carries (m.tick t).bodies j.b)
    (hlim : ((m.tick t).joints k).getImpulse < j.maxForce * t.dt) :
    let e := j.angle - relAngle (m.seen t) j.a j.b
    let e' := j.angle - (relAngle ((m.tick t).seen t') j.a j.b - biasTurn (m.tick t).bodies j.a j.b 1 t.dt)
    let left := leftover (j.errorBias ^ t.dt) (j.maxBias * t.dt)
    0 < e * j.ratchet → e' * j.ratchet ≤ left e * j.ratchet ∧ (0 < ((m.tick t).joints k).getImpulse → e' = left e) := by
  intro e e' left hpos
  obtain ⟨h, j', hf, hc, e1, e2, e3⟩ := last_word m t k hdt.ne' hl
  rw [hk] at hc e2 e3
  obtain ⟨acc, rfl⟩ := core_ratchet (g := (j.preStep (m.seen t) t.dt).2) hc
  rw [e1] at hlim ⊢
  have hra : j.ratchet ≠ 0 := fun hz => by rw [hz, mul_zero] at hpos; exact lt_irrefl _ hpos
  have hMd : 0 < j.maxBias * t.dt := mul_pos hM hdt
  have hbias : (j.preStep (m.seen t) t.dt).2.bias = clamp (-(1 - j.errorBias ^ t.dt) * e / t.dt) (-j.maxBias) j.maxBias := by
    have hp' : 0 < (j.angle - ((m.seen t j.b).a - (m.seen t j.a).a)) * j.ratchet := hpos
    simp only [RatchetJoint.preStep, if_pos hp']
    rfl
  have hcb := clamp_bias (j.errorBias ^ t.dt) e j.maxBias t.dt hdt hM.le
  rw [← hbias] at hcb
  have hsize : leftover (j.errorBias ^ t.dt) (j.maxBias * t.dt) e ≠ e := by
    have key : ∀ x, 0 < x → leftover (j.errorBias ^ t.dt) (j.maxBias * t.dt) x < x := by
      intro x hx
      have : 0 < min ((1 - j.errorBias ^ t.dt) * x) (j.maxBias * t.dt) := lt_min (mul_pos (by linarith) hx) hMd
      rw [leftover, max_eq_right (by linarith)]
      linarith
    have hne : e ≠ 0 := fun hz => by rw [hz, zero_mul] at hpos; exact lt_irrefl _ hpos
    rcases lt_or_gt_of_ne hne with hl | hl
    · have := key (-e) (by linarith)
      rw [leftover_neg _ _ _ hMd.le] at this
      intro hz; rw [hz] at this; exact lt_irrefl _ this
    · exact (key e hl).ne
  have hB : (j.preStep (m.seen t) t.dt).2.bias ≠ 0 := by
    intro hz
    rw [hz, zero_mul, add_zero] at hcb
    exact hsize hcb.symm
  obtain ⟨s1, s2⟩ := ratchet_spin t.dt j (m.seen t) h hab (frozen_same hf _ _) hra
    (by rw [(seen_inertia m t _).2, (seen_inertia m t _).2]; exact hi) acc _ rfl hB hlim
  have e2' : (m.tick t).bodies j.a = (RatchetJoint.applyImpulse h { (j.preStep (m.seen t) t.dt).2 with jAcc := acc } t.dt).1 j.a := e2
  have e3' : (m.tick t).bodies j.b = (RatchetJoint.applyImpulse h { (j.preStep (m.seen t) t.dt).2 with jAcc := acc } t.dt).1 j.b := e3
  rw [← e2', ← e3'] at s1 s2
  have s1' : -(j.preStep (m.seen t) t.dt).2.bias * j.ratchet ≤ (((m.tick t).bodies j.b).w - ((m.tick t).bodies j.a).w) * j.ratchet := s1
  have s2' : 0 < (RatchetJoint.applyImpulse h { (j.preStep (m.seen t) t.dt).2 with jAcc := acc } t.dt).2.getImpulse →
    ((m.tick t).bodies j.b).w - ((m.tick t).bodies j.a).w = -(j.preStep (m.seen t) t.dt).2.bias := s2
  have hd' : e' = e - (((m.tick t).bodies j.b).w - ((m.tick t).bodies j.a).w) * t.dt := by
    simp only [e', e, relAngle, biasTurn]
    rw [carried_angle ha, carried_angle hb, hdt', (tick_frozen m t hdt.ne' j.a).a, (tick_frozen m t hdt.ne' j.b).a]
    ring
  simp only [left]
  rw [← hcb, hd']
  constructor
  · nlinarith [mul_le_mul_of_nonneg_right s1' hdt.le]
  · intro hp
    rw [s2' hp]
    ring

/-! ### Pivots and pins -/

theorem solvable_seen {m : Motion ℝ} {t : Tick ℝ} {a b : Nat} (h : Solvable m.bodies a b) : Solvable (m.seen t) a b :=
  ⟨by rw [(seen_inertia m t a).1, (seen_inertia m t b).1]; exact h.m, by rw [(seen_inertia m t a).2]; exact h.ia,
    by rw [(seen_inertia m t b).2]; exact h.ib⟩

/-- How the gap between two grips changes over a step, given the relative velocity of the grips. -/
theorem gap_moves (m : Motion ℝ) (t t' : Tick ℝ) (a b : Nat) (p q : Vec ℝ) (hdt : t.dt ≠ 0) (hdt' : t'.dt = t.dt) (hn : t.movers.Nodup)
    (ua : UpToDate m.bodies a) (ub : UpToDate m.bodies b) (ha : t'.Carries (m.tick t).bodies a) (hb : t'.Carries (m.tick t).bodies b) :
    ∃ ρ : Vec ℝ, ρ.length ≤ swing (m.tick t).bodies a p t.dt + swing (m.tick t).bodies b q t.dt ∧
      gripGap ((m.tick t).seen t') a b p q =
        (((gripGap (m.seen t) a b p q).add ((relVel (m.tick t).bodies a b (anchorOffset (m.seen t a) p) (anchorOffset (m.seen t b) q)).mult t.dt)).add
          ((biasMove (m.tick t).bodies b q t.dt).sub (biasMove (m.tick t).bodies a p t.dt))).add ρ := by
  have fa := tick_frozen m t hdt a
  have fb := tick_frozen m t hdt b
  obtain ⟨ρa, ra, ga⟩ := carried_grip ha (fa.wf (seen_wf hn ua)) p
  obtain ⟨ρb, rb, gb⟩ := carried_grip hb (fb.wf (seen_wf hn ub)) q
  rw [hdt'] at ra rb ga gb
  have oa : anchorOffset ((m.tick t).bodies a) p = anchorOffset (m.seen t a) p := by simp only [anchorOffset, fa.transform, fa.cog]
  have ob : anchorOffset ((m.tick t).bodies b) q = anchorOffset (m.seen t b) q := by simp only [anchorOffset, fb.transform, fb.cog]
  rw [oa, fa.grip] at ga
  rw [ob, fb.grip] at gb
  refine ⟨ρb.sub ρa, ?_, ?_⟩
  · have e : ρb.sub ρa = ρb.add (ρa.mult (-1)) := by ext <;> simp [Vec.sub, Vec.add, Vec.mult] <;> ring
    have := Vec.length_add_le ρb (ρa.mult (-1))
    rw [Vec.length_mult, abs_neg, abs_one, mul_one] at this
    rw [e]
    linarith
  · simp only [gripGap]
    rw [ga, gb]
    ext <;> simp only [relVel, Vec.add, Vec.sub, Vec.mult] <;> ring

/-- **C57**, pivot: a step in which the joint has the last word and `MaxForce` does not bind leaves, when the joint next looks, the share
`errorBias^dt` of the gap between the grips (more if `MaxBias` binds), plus what contacts move the bodies to push them apart, up to half
of arm length times the square of the angle by which each body turns. -/
theorem C57_pivot (m : Motion ℝ) (t t' : Tick ℝ) (k : Nat) (j : PivotJoint ℝ) (hk : m.joints k = .pivot j) (hab : j.a ≠ j.b)
    (hdt : 0 < t.dt) (hdt' : t'.dt = t.dt) (hl : t.LastWord m k) (hs : Solvable m.bodies j.a j.b) (hn : t.movers.Nodup)
    (hM : 0 ≤ j.maxBias) (hr : j.errorBias ^ t.dt ≤ 1)
    (ua : UpToDate m.bodies j.a) (ub : UpToDate m.bodies j.b)
    (ha : t'.Carries (m.tick t).bodies j.a) (hb : t'.Carries (m.tick t).bodies j.b)
    (hlim : ((m.tick t).joints k).getImpulse + 1 / 10 ^ 15 ≤ j.maxForce * t.dt) :
    let r := j.errorBias ^ t.dt
    let e := gripGap (m.seen t) j.a j.b j.anchorA j.anchorB
    let e' := gripGap ((m.tick t).seen t') j.a j.b j.anchorA j.anchorB
    let pushed := (biasMove (m.tick t).bodies j.b j.anchorB t.dt).sub (biasMove (m.tick t).bodies j.a j.anchorA t.dt)
    ∃ s, r ≤ s ∧ s ≤ 1 ∧ ((1 - r) * e.length ≤ j.maxBias * t.dt → s = r) ∧
      (e'.sub ((e.mult s).add pushed)).length ≤ swing (m.tick t).bodies j.a j.anchorA t.dt + swing (m.tick t).bodies j.b j.anchorB t.dt := by
  intro r e e' pushed
  obtain ⟨h, j', hf, hc, e1, e2, e3⟩ := last_word m t k hdt.ne' hl
  rw [hk] at hc e2 e3
  obtain ⟨acc, rfl⟩ := core_pivot (g := (j.preStep (m.seen t) t.dt).2) hc
  rw [e1] at hlim
  have e2' : (m.tick t).bodies j.a = (PivotJoint.applyImpulse h { (j.preStep (m.seen t) t.dt).2 with jAcc := acc } t.dt).1 j.a := e2
  have e3' : (m.tick t).bodies j.b = (PivotJoint.applyImpulse h { (j.preStep (m.seen t) t.dt).2 with jAcc := acc } t.dt).1 j.b := e3
  obtain ⟨jp, hjp⟩ : ∃ jp : PivotJoint ℝ, jp = { (j.preStep (m.seen t) t.dt).2 with jAcc := acc } := ⟨_, rfl⟩
  rw [← hjp] at e2' e3' hlim
  have hjacc : jp.jAcc = acc := by rw [hjp]
  have hja : jp.a = j.a := by rw [hjp]; rfl
  have hjb : jp.b = j.b := by rw [hjp]; rfl
  have hjf : jp.maxForce = j.maxForce := by rw [hjp]; rfl
  have hr1 : jp.r1 = anchorOffset (m.seen t j.a) j.anchorA := by rw [hjp]; rfl
  have hr2 : jp.r2 = anchorOffset (m.seen t j.b) j.anchorB := by rw [hjp]; rfl
  have hbias : jp.bias = ((((m.seen t j.b).p.add (anchorOffset (m.seen t j.b) j.anchorB)).sub
      ((m.seen t j.a).p.add (anchorOffset (m.seen t j.a) j.anchorA))).mult (-(1 - r) / t.dt)).clampLen j.maxBias := by rw [hjp]; rfl
  have hlim1 : (((acc.add (jp.k.transform (jp.bias.sub (relVel h j.a j.b jp.r1 jp.r2))))).clampLen (j.maxForce * t.dt)).length + 1 / 10 ^ 15 ≤ j.maxForce * t.dt := by
    have := hlim
    simp only [Joint.applyImpulse, Joint.getImpulse, Prod.map, PivotJoint.applyImpulse, PivotJoint.getImpulse, hjacc, hja, hjb, hjf] at this
    exact this
  have hf0 : 0 ≤ j.maxForce * t.dt := by
    have := (((acc.add (jp.k.transform (jp.bias.sub (relVel h j.a j.b jp.r1 jp.r2))))).clampLen (j.maxForce * t.dt)).length_nonneg
    linarith [show (0:ℝ) < 1 / 10 ^ 15 by positivity]
  have hlim2 : (acc.add (jp.k.transform (jp.bias.sub (relVel h j.a j.b jp.r1 jp.r2)))).length ≤ j.maxForce * t.dt := by
    have h1 := clampLen_inside _ _ hlim1
    rw [← h1]
    exact (C41_clampLen _ _ hf0).1
  have hsol := C19_pivot t.dt j (m.seen t) h hab (frozen_same hf _ _) (solvable_seen hs) acc jp hjp hf0 hlim2
  have hsol' : relVel (m.tick t).bodies j.a j.b jp.r1 jp.r2 = jp.bias := by
    rw [← hsol]
    simp only [relVel, e2', e3']
  have hwa := seen_wf hn ua
  have hwb := seen_wf hn ub
  rw [← grip_eq hwa, ← grip_eq hwb] at hbias
  have hbias' : jp.bias = (e.mult (-(1 - r) / t.dt)).clampLen j.maxBias := hbias
  obtain ⟨c1, c2, s, s0, s1, hs1⟩ := C41_clampLen (e.mult (-(1 - r) / t.dt)) j.maxBias hM
  obtain ⟨ρ, hρ, hgap⟩ := gap_moves m t t' j.a j.b j.anchorA j.anchorB hdt.ne' hdt' hn ua ub ha hb
  rw [← hr1, ← hr2, hsol'] at hgap
  have hlen : (e.mult (-(1 - r) / t.dt)).length = (1 - r) * e.length / t.dt := by
    rw [Vec.length_mult, abs_div, abs_neg, abs_of_nonneg (by simp only [r]; linarith : 0 ≤ 1 - r), abs_of_pos hdt]
    ring
  have fin : ∀ s, jp.bias = (e.mult (-(1 - r) / t.dt)).mult s → (e'.sub ((e.mult (1 - s * (1 - r))).add pushed)).length ≤
      swing (m.tick t).bodies j.a j.anchorA t.dt + swing (m.tick t).bodies j.b j.anchorB t.dt := by
    intro s hse
    have : e'.sub ((e.mult (1 - s * (1 - r))).add pushed) = ρ := by
      have h1 : e' = ((e.add (jp.bias.mult t.dt)).add pushed).add ρ := hgap
      rw [h1, hse]
      have hd : -(1 - r) / t.dt * t.dt = -(1 - r) := div_mul_cancel₀ _ hdt.ne'
      ext
      · simp only [Vec.add, Vec.sub, Vec.mult]
        linear_combination e.x * s * hd
      · simp only [Vec.add, Vec.sub, Vec.mult]
        linear_combination e.y * s * hd
    rw [this]
    exact hρ
  have hr0 : 0 ≤ 1 - r := by simp only [r]; linarith
  by_cases hfree : (1 - r) * e.length ≤ j.maxBias * t.dt
  · refine ⟨r, le_rfl, by linarith, fun _ => rfl, ?_⟩
    have h1 : (e.mult (-(1 - r) / t.dt)).length ≤ j.maxBias := by rw [hlen, div_le_iff₀ hdt]; exact hfree
    have h2 := fin 1 (by rw [hbias', c2 h1]; ext <;> simp [Vec.mult])
    have : 1 - 1 * (1 - r) = r := by ring
    rw [this] at h2
    exact h2
  · refine ⟨1 - s * (1 - r), ?_, ?_, fun h => absurd h hfree, fin s (by rw [hbias', hs1])⟩
    · nlinarith
    · nlinarith

theorem gripVel_rel {h : Bodies ℝ} {a b : Nat} (wa : (h a).Wf) (wb : (h b).Wf) (p q : Vec ℝ) :
    relVel h a b (anchorOffset (h a) p) (anchorOffset (h b) q) = (gripVel h b q).sub (gripVel h a p) := by
  have e : ∀ u v : Vec ℝ, (u.add v).sub u = v := by intro u v; ext <;> simp [Vec.add, Vec.sub]
  simp only [gripVel, grip_eq wa, grip_eq wb, e]
  ext <;> simp only [relVel, Vec.add, Vec.sub] <;> ring

/-- **C57**, pin: if the grips are apart, a step in which the joint has the last word and `MaxForce` does not bind leaves along the line
between the grips the share `errorBias^dt` of the error of the distance (more if `MaxBias` binds). The new distance is that, combined
with the way the grips make across the line, up to half of arm length times the square of the angle by which each body turns; contacts
move the bodies in addition to push them apart. -/
theorem C57_pin (m : Motion ℝ) (t t' : Tick ℝ) (k : Nat) (j : PinJoint ℝ) (hk : m.joints k = .pin j) (hab : j.a ≠ j.b)
    (hdt : 0 < t.dt) (hdt' : t'.dt = t.dt) (hl : t.LastWord m k) (hs : Solvable m.bodies j.a j.b) (hn : t.movers.Nodup)
    (hM : 0 ≤ j.maxBias)
    (ua : UpToDate m.bodies j.a) (ub : UpToDate m.bodies j.b)
    (hne : grip (m.seen t) j.a j.anchorA ≠ grip (m.seen t) j.b j.anchorB)
    (ha : t'.Carries (m.tick t).bodies j.a) (hb : t'.Carries (m.tick t).bodies j.b)
    (hlim : ((m.tick t).joints k).getImpulse < j.maxForce * t.dt) :
    let e := gripGap (m.seen t) j.a j.b j.anchorA j.anchorB
    let e' := gripGap ((m.tick t).seen t') j.a j.b j.anchorA j.anchorB
    let pushed := (biasMove (m.tick t).bodies j.b j.anchorB t.dt).sub (biasMove (m.tick t).bodies j.a j.anchorA t.dt)
    let across := e.cross ((gripVel (m.tick t).bodies j.b j.anchorB).sub (gripVel (m.tick t).bodies j.a j.anchorA)) / e.length
    let left := leftover (j.errorBias ^ t.dt) (j.maxBias * t.dt) (e.length - j.dist)
    |(e'.sub pushed).length - Real.sqrt ((j.dist + left) ^ 2 + (across * t.dt) ^ 2)| ≤
      swing (m.tick t).bodies j.a j.anchorA t.dt + swing (m.tick t).bodies j.b j.anchorB t.dt := by
  intro e e' pushed across left
  obtain ⟨h, j', hf, hc, e1, e2, e3⟩ := last_word m t k hdt.ne' hl
  rw [hk] at hc e2 e3
  obtain ⟨acc, rfl⟩ := core_pin (g := (j.preStep (m.seen t) t.dt).2) hc
  rw [e1] at hlim
  have e2' : (m.tick t).bodies j.a = (PinJoint.applyImpulse h { (j.preStep (m.seen t) t.dt).2 with jnAcc := acc } t.dt).1 j.a := e2
  have e3' : (m.tick t).bodies j.b = (PinJoint.applyImpulse h { (j.preStep (m.seen t) t.dt).2 with jnAcc := acc } t.dt).1 j.b := e3
  obtain ⟨jp, hjp⟩ : ∃ jp : PinJoint ℝ, jp = { (j.preStep (m.seen t) t.dt).2 with jnAcc := acc } := ⟨_, rfl⟩
  rw [← hjp] at e2' e3' hlim
  have hwa := seen_wf hn ua
  have hwb := seen_wf hn ub
  have hr1 : jp.r1 = anchorOffset (m.seen t j.a) j.anchorA := by rw [hjp]; rfl
  have hr2 : jp.r2 = anchorOffset (m.seen t j.b) j.anchorB := by rw [hjp]; rfl
  have hsol := C19_pin t.dt j (m.seen t) h hab (frozen_same hf _ _) acc jp hjp
    (by rw [← grip_eq hwa, ← grip_eq hwb]; exact hne) (solvable_seen hs) hlim
  have hdelta : (m.seen t j.b).p.add ((anchorOffset (m.seen t j.b) j.anchorB).sub ((m.seen t j.a).p.add (anchorOffset (m.seen t j.a) j.anchorA))) = e := by
    simp only [e, gripGap]
    rw [grip_eq hwa, grip_eq hwb]
    ext <;> simp only [Vec.add, Vec.sub] <;> ring
  have hlen : e.length ≠ 0 := by
    intro hz
    apply hne
    have h2 := e.length_sq
    rw [hz] at h2
    simp only [Vec.dot] at h2
    have hx : e.x = 0 := by nlinarith [sq_nonneg e.x, sq_nonneg e.y]
    have hy : e.y = 0 := by nlinarith [sq_nonneg e.x, sq_nonneg e.y]
    simp only [e, gripGap, Vec.sub] at hx hy
    ext <;> linarith
  have hjn : jp.n = e.mult (1 / e.length) := by
    rw [hjp]
    simp only [PinJoint.preStep]
    rw [hdelta, if_pos hlen]
  have hbias : jp.bias = clamp (-(1 - j.errorBias ^ t.dt) * (e.length - j.dist) / t.dt) (-j.maxBias) j.maxBias := by
    rw [← hdelta, hjp]; rfl
  have hcb := clamp_bias (j.errorBias ^ t.dt) (e.length - j.dist) j.maxBias t.dt hdt hM
  rw [← hbias] at hcb
  obtain ⟨ρ, hρ, hgap⟩ := gap_moves m t t' j.a j.b j.anchorA j.anchorB hdt.ne' hdt' hn ua ub ha hb
  have fa := tick_frozen m t hdt.ne' j.a
  have fb := tick_frozen m t hdt.ne' j.b
  have oa : anchorOffset ((m.tick t).bodies j.a) j.anchorA = anchorOffset (m.seen t j.a) j.anchorA := by simp only [anchorOffset, fa.transform, fa.cog]
  have ob : anchorOffset ((m.tick t).bodies j.b) j.anchorB = anchorOffset (m.seen t j.b) j.anchorB := by simp only [anchorOffset, fb.transform, fb.cog]
  have hV := gripVel_rel (fa.wf hwa) (fb.wf hwb) j.anchorA j.anchorB
  rw [oa, ob] at hV
  have hsol' : ((gripVel (m.tick t).bodies j.b j.anchorB).sub (gripVel (m.tick t).bodies j.a j.anchorA)).dot jp.n = jp.bias := by
    rw [← hV, ← hsol, hr1, hr2]
    simp only [relVel, e2', e3']
  rw [hV] at hgap
  simp only [across]
  generalize (gripVel (m.tick t).bodies j.b j.anchorB).sub (gripVel (m.tick t).bodies j.a j.anchorA) = V at *
  have hq : (e.add (V.mult t.dt)).length = Real.sqrt ((j.dist + left) ^ 2 + (e.cross V / e.length * t.dt) ^ 2) := by
    rw [Vec.length]
    congr 1
    have hL : j.dist + left = e.length + jp.bias * t.dt := by simp only [left]; linarith
    rw [hL, ← hsol', hjn]
    have h2 := e.length_sq
    simp only [Vec.dot, Vec.add, Vec.mult, Vec.cross] at h2 ⊢
    have hi : e.length * (1 / e.length) = 1 := by field_simp
    rw [div_eq_mul_one_div (e.x * V.y - e.y * V.x)]
    generalize 1 / e.length = i at *
    have h3 : (e.x * e.x + e.y * e.y) * i ^ 2 = 1 := by rw [← h2, ← mul_pow, hi, one_pow]
    linear_combination (-1 : ℝ) * h2 - (2 * t.dt * (V.x * e.x + V.y * e.y)) * hi - t.dt ^ 2 * (V.x ^ 2 + V.y ^ 2) * h3
  rw [← hq]
  have hsub : e'.sub pushed = (e.add (V.mult t.dt)).add ρ := by
    have h1 : e' = ((e.add (V.mult t.dt)).add pushed).add ρ := hgap
    rw [h1]
    ext <;> simp only [Vec.add, Vec.sub] <;> ring
  rw [hsub, abs_le]
  have t1 := Vec.length_add_le (e.add (V.mult t.dt)) ρ
  have t2 := Vec.length_add_le ((e.add (V.mult t.dt)).add ρ) (ρ.mult (-1))
  have h4 : ((e.add (V.mult t.dt)).add ρ).add (ρ.mult (-1)) = e.add (V.mult t.dt) := by ext <;> simp [Vec.add, Vec.mult]
  rw [h4, Vec.length_mult, abs_neg, abs_one, mul_one] at t2
  constructor <;> linarith

/-- One `ApplyImpulse` of a slide joint out of its range, along its (almost unit) axis. -/
theorem slide_axis (dt : ℝ) (j : SlideJoint ℝ) (h0 h : Bodies ℝ) (hab : j.a ≠ j.b) (hi : SameInertia h0 h j.a j.b) (hs : Solvable h0 j.a j.b)
    (acc : ℝ) (jp : SlideJoint ℝ) (hjp : jp = { (j.preStep h0 dt).2 with jnAcc := acc }) (hn0 : 0 < jp.n.dot jp.n) (hn1 : jp.n.dot jp.n ≤ 1)
    (hlim : (jp.applyImpulse h dt).2.getImpulse < j.maxForce * dt) :
    let v := (relVel h j.a j.b jp.r1 jp.r2).dot jp.n
    let v' := (relVel (jp.applyImpulse h dt).1 j.a j.b jp.r1 jp.r2).dot jp.n
    ∃ θ, 0 ≤ θ ∧ θ ≤ 1 - jp.n.dot jp.n ∧ v' ≤ jp.bias + θ * (v - jp.bias) ∧
      (0 < (jp.applyImpulse h dt).2.getImpulse → v' = jp.bias + θ * (v - jp.bias)) := by
  have hK := hs.kScalar_pos jp.r1 jp.r2 jp.n
  have hnm : jp.nMass = 1 / kScalar h0 j.a j.b jp.r1 jp.r2 jp.n := by rw [hjp]; rfl
  have ha : jp.a = j.a := by rw [hjp]; rfl
  have hb : jp.b = j.b := by rw [hjp]; rfl
  have hmf : jp.maxForce = j.maxForce := by rw [hjp]; rfl
  have hnz : ¬(jp.n.x = 0 ∧ jp.n.y = 0) := by
    rintro ⟨hx, hy⟩
    simp only [Vec.dot, hx, hy] at hn0
    norm_num at hn0
  have happ : ∀ s, (relVel (applyImpulses h j.a j.b jp.r1 jp.r2 (jp.n.mult s)) j.a j.b jp.r1 jp.r2).dot jp.n =
      (relVel h j.a j.b jp.r1 jp.r2).dot jp.n +
        s * (kScalar h0 j.a j.b jp.r1 jp.r2 jp.n - (1 - jp.n.dot jp.n) * ((h0 j.a).m_inv + (h0 j.b).m_inv)) := by
    intro s
    rw [relVel_apply h j.a j.b hab]
    simp only [kScalar, kScalarBody, Vec.add, Vec.mult, Vec.perp, Vec.cross, Vec.dot, hi.ma, hi.mb, hi.ia, hi.ib]
    ring
  have hMK : (h0 j.a).m_inv + (h0 j.b).m_inv ≤ kScalar h0 j.a j.b jp.r1 jp.r2 jp.n := by
    have h1 := mul_nonneg hs.ia (mul_self_nonneg (jp.r1.cross jp.n))
    have h2 := mul_nonneg hs.ib (mul_self_nonneg (jp.r2.cross jp.n))
    simp only [kScalar, kScalarBody]
    nlinarith
  have hM := hs.m
  clear hjp
  simp only [SlideJoint.applyImpulse, if_neg hnz, SlideJoint.getImpulse, fabs_real, hmf, ha, hb] at hlim ⊢
  rw [happ]
  rw [neg_mul] at hlim ⊢
  obtain ⟨c1, c2⟩ := clamp_nonpos _ _ hlim
  generalize (relVel h j.a j.b jp.r1 jp.r2).dot jp.n = v at *
  generalize kScalar h0 j.a j.b jp.r1 jp.r2 jp.n = K at *
  generalize (h0 j.a).m_inv + (h0 j.b).m_inv = M at *
  generalize jp.n.dot jp.n = q at *
  generalize clamp (jp.jnAcc + (jp.bias - v) * jp.nMass) (-(j.maxForce * dt)) 0 = c at *
  have hsol := solve_div (jp.bias - v) K hK.ne'
  rw [← hnm] at hsol
  have hθ : (1 - q) * M / K * K = (1 - q) * M := div_mul_cancel₀ _ hK.ne'
  have hK' : 0 ≤ K - (1 - q) * M := by nlinarith
  have key : v + (jp.bias - v) * jp.nMass * (K - (1 - q) * M) = jp.bias + (1 - q) * M / K * (v - jp.bias) := by
    generalize hth : (1 - q) * M / K = θ at *
    rw [← hθ]
    linear_combination (1 - θ) * hsol
  refine ⟨(1 - q) * M / K, div_nonneg (mul_nonneg (by linarith) hM.le) hK.le, ?_, ?_, fun hp => ?_⟩
  · rw [div_le_iff₀ hK]
    exact mul_le_mul_of_nonneg_left hMK (by linarith)
  · rw [← key]
    nlinarith [mul_le_mul_of_nonneg_right c1 hK']
  · rw [← key, c2 hp]
    ring

/-- **C57**, slide joint: out of its range, one `ApplyImpulse` that `MaxForce` does not stop leaves the grips approaching (if too far
apart; receding if too close) at least as fast as it takes to leave only the share `errorBias^dt` of the excess, and exactly so if the
joint had to push - up to the factor `d / (d + 1e-15)` of `Normalize` and the share `θ` of what was missing before. -/
theorem C57_slide (dt : ℝ) (j : SlideJoint ℝ) (h0 h : Bodies ℝ) (hab : j.a ≠ j.b) (hi : SameInertia h0 h j.a j.b) (hs : Solvable h0 j.a j.b)
    (wa : (h0 j.a).Wf) (wb : (h0 j.b).Wf) (hdt : 0 < dt) (hM : 0 ≤ j.maxBias)
    (acc : ℝ) (jp : SlideJoint ℝ) (hjp : jp = { (j.preStep h0 dt).2 with jnAcc := acc })
    (hlim : (jp.applyImpulse h dt).2.getImpulse < j.maxForce * dt) :
    let e := gripGap h0 j.a j.b j.anchorA j.anchorB
    let d := e.length
    let along (h : Bodies ℝ) := (relVel h j.a j.b (anchorOffset (h0 j.a) j.anchorA) (anchorOffset (h0 j.b) j.anchorB)).dot e / d
    let s := along h
    let s' := along (jp.applyImpulse h dt).1
    let left := leftover (j.errorBias ^ dt) (j.maxBias * dt)
    let c := d / (d + 1 / 10 ^ 15)
    0 < d →
    (j.max < d → ∃ θ, 0 ≤ θ ∧ θ ≤ 1 - c ^ 2 ∧
      let v := (left (d - j.max) - (d - j.max)) / dt
      c * s' ≤ v + θ * (c * s - v) ∧ (0 < (jp.applyImpulse h dt).2.getImpulse → c * s' = v + θ * (c * s - v))) ∧
    (d ≤ j.max → d < j.min → ∃ θ, 0 ≤ θ ∧ θ ≤ 1 - c ^ 2 ∧
      let v := (left (j.min - d) - (j.min - d)) / dt
      c * -s' ≤ v + θ * (c * -s - v) ∧ (0 < (jp.applyImpulse h dt).2.getImpulse → c * -s' = v + θ * (c * -s - v))) := by
  intro e d along s s' left c hd
  have hr1 : jp.r1 = anchorOffset (h0 j.a) j.anchorA := by rw [hjp]; rfl
  have hr2 : jp.r2 = anchorOffset (h0 j.b) j.anchorB := by rw [hjp]; rfl
  have hdelta : ((h0 j.b).p.add (anchorOffset (h0 j.b) j.anchorB)).sub ((h0 j.a).p.add (anchorOffset (h0 j.a) j.anchorA)) = e := by
    simp only [e, gripGap]
    rw [grip_eq wa, grip_eq wb]
  have hε : (0:ℝ) < d + 1 / 10 ^ 15 := by positivity
  have hd2 : e.x * e.x + e.y * e.y = d ^ 2 := by have := e.length_sq; simp only [Vec.dot] at this; linarith
  have hc0 : 0 < c := div_pos hd hε
  have hc1 : c ≤ 1 := by
    rw [div_le_one hε]
    linarith [show (0:ℝ) < 1 / 10 ^ 15 by positivity]
  have hnn : ∀ σ : ℝ, σ ^ 2 = 1 → (e.mult (σ / (d + 1 / 10 ^ 15))).dot (e.mult (σ / (d + 1 / 10 ^ 15))) = c ^ 2 := by
    intro σ hσ
    simp only [Vec.dot, Vec.mult, c, div_pow]
    field_simp
    linear_combination hσ * (e.x ^ 2 + e.y ^ 2) + hd2
  have hal : ∀ (g : Bodies ℝ) (σ : ℝ), (relVel g j.a j.b (anchorOffset (h0 j.a) j.anchorA) (anchorOffset (h0 j.b) j.anchorB)).dot
      (e.mult (σ / (d + 1 / 10 ^ 15))) = c * (σ * along g) := by
    intro g σ
    simp only [Vec.dot, Vec.mult, c, along]
    have := hd.ne'
    field_simp
  have hbias : ∀ x, jp.bias = clamp (-(1 - j.errorBias ^ dt) * x / dt) (-j.maxBias) j.maxBias → jp.bias = (left x - x) / dt := by
    intro x hx
    have hcb := clamp_bias (j.errorBias ^ dt) x j.maxBias dt hdt hM
    rw [← hx] at hcb
    rw [eq_div_iff hdt.ne']
    simp only [left]
    linarith
  have fin : ∀ (σ x : ℝ), σ ^ 2 = 1 → jp.n = e.mult (σ / (d + 1 / 10 ^ 15)) →
      jp.bias = clamp (-(1 - j.errorBias ^ dt) * x / dt) (-j.maxBias) j.maxBias →
      ∃ θ, 0 ≤ θ ∧ θ ≤ 1 - c ^ 2 ∧
      let v := (left x - x) / dt
      c * (σ * s') ≤ v + θ * (c * (σ * s) - v) ∧ (0 < (jp.applyImpulse h dt).2.getImpulse → c * (σ * s') = v + θ * (c * (σ * s) - v)) := by
    intro σ x hσ hn hx
    have hq : jp.n.dot jp.n = c ^ 2 := by rw [hn, hnn σ hσ]
    obtain ⟨θ, t0, t1, t2, t3⟩ := slide_axis dt j h0 h hab hi hs acc jp hjp (by rw [hq]; positivity) (by rw [hq]; nlinarith) hlim
    rw [hr1, hr2, hn, hal, hal, hbias x hx] at t2 t3
    rw [hq] at t1
    exact ⟨θ, t0, t1, t2, t3⟩
  constructor
  · intro hmax
    have hmax' : j.max < (((h0 j.b).p.add (anchorOffset (h0 j.b) j.anchorB)).sub ((h0 j.a).p.add (anchorOffset (h0 j.a) j.anchorA))).length := by
      rw [hdelta]; exact hmax
    have hn : jp.n = e.mult (1 / (d + 1 / 10 ^ 15)) := by
      rw [hjp]; simp only [SlideJoint.preStep, if_pos hmax']; rw [hdelta]; simp [Vec.normalize, lit_real]; rfl
    have hx : jp.bias = clamp (-(1 - j.errorBias ^ dt) * (d - j.max) / dt) (-j.maxBias) j.maxBias := by
      rw [hjp]; simp only [SlideJoint.preStep, if_pos hmax']; rw [hdelta]; rfl
    have := fin 1 _ (by norm_num) hn hx
    simpa only [one_mul] using this
  · intro hmax hmin
    have hmax' : ¬ j.max < (((h0 j.b).p.add (anchorOffset (h0 j.b) j.anchorB)).sub ((h0 j.a).p.add (anchorOffset (h0 j.a) j.anchorA))).length := by
      rw [hdelta]; exact not_lt.2 hmax
    have hmin' : (((h0 j.b).p.add (anchorOffset (h0 j.b) j.anchorB)).sub ((h0 j.a).p.add (anchorOffset (h0 j.a) j.anchorA))).length < j.min := by
      rw [hdelta]; exact hmin
    have hn : jp.n = e.mult (-1 / (d + 1 / 10 ^ 15)) := by
      rw [hjp]; simp only [SlideJoint.preStep, if_neg hmax', if_pos hmin']; rw [hdelta]
      simp only [Vec.normalize, lit_real, Vec.neg, Vec.mult, d]
      ext <;> simp <;> ring
    have hx : jp.bias = clamp (-(1 - j.errorBias ^ dt) * (j.min - d) / dt) (-j.maxBias) j.maxBias := by
      rw [hjp]; simp only [SlideJoint.preStep, if_neg hmax', if_pos hmin']; rw [hdelta]; rfl
    have := fin (-1) _ (by norm_num) hn hx
    simpa only [neg_one_mul, neg_mul, one_mul] using this

/-! ### Many steps -/

/-- **C57**: corrected again and again, an error vanishes: with `0 ≤ r < 1` and a positive limit `c` it shrinks at least geometrically. -/
theorem C57_leftover_vanishes (r c e : ℝ) (h0 : 0 ≤ r) (h1 : r < 1) (hc : 0 < c) (he : e ≠ 0) :
    (∀ n, |(leftover r c)^[n] e| ≤ (max r (1 - c / |e|)) ^ n * |e|) ∧ max r (1 - c / |e|) < 1 ∧
    Filter.Tendsto (fun n => (leftover r c)^[n] e) Filter.atTop (nhds 0) := by
  have hlt : max r (1 - c / |e|) < 1 := max_lt h1 (by have : 0 < c / |e| := div_pos hc (abs_pos.2 he); linarith)
  have hb := leftover_iterate r c e h0 h1.le hc he
  refine ⟨hb, hlt, ?_⟩
  have h2 : Filter.Tendsto (fun n => (max r (1 - c / |e|)) ^ n * |e|) Filter.atTop (nhds 0) := by
    have := (tendsto_pow_atTop_nhds_zero_of_lt_one (le_max_of_le_left h0 : 0 ≤ max r (1 - c / |e|)) hlt).mul_const |e|
    simpa using this
  exact squeeze_zero_norm hb h2

/-- A step keeps the settings of a joint that has the last word. -/
theorem core_tick (m : Motion ℝ) (t : Tick ℝ) (k : Nat) (hdt : t.dt ≠ 0) (hl : t.LastWord m k) :
    ((m.tick t).joints k).core = ((m.joints k).preStep (m.seen t) t.dt).2.core := by
  obtain ⟨h, j, -, hc, e1, -, -⟩ := last_word m t k hdt hl
  rw [e1, core_apply, hc]

theorem tick_inertia (m : Motion ℝ) (t : Tick ℝ) (hdt : t.dt ≠ 0) (x : Nat) : ((m.tick t).bodies x).i_inv = (m.bodies x).i_inv := by
  rw [(tick_frozen m t hdt x).i_inv, (seen_inertia m t x).2]

/-- **C57**, gear: undisturbed, the error after `n` steps is the initial one corrected `n` times, exactly. -/
theorem C57_gear_steps (ms : Nat → Motion ℝ) (ts : Nat → Tick ℝ) (dt : ℝ) (k : Nat) (j : GearJoint ℝ) (hk : (ms 0).joints k = .gear j)
    (hab : j.a ≠ j.b) (hdt : 0 < dt) (hr : j.ratio ≠ 0) (hri : j.ratio_inv = 1 / j.ratio)
    (hi : ((ms 0).bodies j.a).i_inv * j.ratio_inv + j.ratio * ((ms 0).bodies j.b).i_inv ≠ 0) (hM : 0 ≤ j.maxBias)
    (hu : Undisturbed ms ts dt k j.a j.b) (n : Nat) :
    gearError ((ms n).seen (ts n)) j = (leftover (j.errorBias ^ dt) (j.maxBias * dt))^[n] (gearError ((ms 0).seen (ts 0)) j) := by
  have hd : ∀ n, (ts n).dt ≠ 0 := fun n => by rw [hu.length]; exact hdt.ne'
  have inv : ∀ n, (∃ acc isum bias, (ms n).joints k = .gear { j with jAcc := acc, iSum := isum, bias := bias }) ∧
      ∀ x, ((ms n).bodies x).i_inv = ((ms 0).bodies x).i_inv := by
    intro n
    induction n with
    | zero => exact ⟨⟨_, _, _, hk⟩, fun _ => rfl⟩
    | succ n ih =>
      obtain ⟨⟨acc, isum, bias, hj⟩, hx⟩ := ih
      constructor
      · have hc := core_tick (ms n) (ts n) k (hd n) (hu.last n)
        rw [hj, ← hu.step n] at hc
        obtain ⟨acc', hacc⟩ := core_gear (g := (GearJoint.preStep ((ms n).seen (ts n)) { j with jAcc := acc, iSum := isum, bias := bias } (ts n).dt).2) hc
        exact ⟨_, _, _, hacc⟩
      · intro x
        rw [hu.step n, tick_inertia _ _ (hd n), hx]
  induction n with
  | zero => rfl
  | succ n ih =>
    obtain ⟨⟨acc, isum, bias, hj⟩, hx⟩ := inv n
    rw [Function.iterate_succ_apply', ← ih]
    have hlim := hu.unlimited n
    rw [hu.step n, hj] at hlim
    have ca := hu.carried (n + 1) j.a (.inl rfl)
    have cb := hu.carried (n + 1) j.b (.inr rfl)
    rw [hu.step n] at ca cb
    have := C57_gear (ms n) (ts n) (ts (n + 1)) k _ hj hab (by rw [hu.length]; exact hdt) (by rw [hu.length, hu.length]) (hu.last n) hr hri
      (by rw [hx, hx]; exact hi) hM ca cb (by rw [hu.length]; exact hlim)
    rw [← hu.step n, hu.length] at this
    have ba := untouched_bias (ms n) (ts n) j.a (hd n) (hu.untouched n _ (.inl rfl)) (hu.carried n _ (.inl rfl))
    have bb := untouched_bias (ms n) (ts n) j.b (hd n) (hu.untouched n _ (.inr rfl)) (hu.carried n _ (.inr rfl))
    rw [← hu.step n] at ba bb
    simp only [biasTurn, ba.2, bb.2, zero_mul, sub_zero, add_zero] at this
    exact this

/-- **C57**, motor: undisturbed, the bodies have turned against each other by exactly `n * rate * dt` after `n` steps. -/
theorem C57_motor_steps (ms : Nat → Motion ℝ) (ts : Nat → Tick ℝ) (dt : ℝ) (k : Nat) (j : SimpleMotor ℝ) (hk : (ms 0).joints k = .motor j)
    (hab : j.a ≠ j.b) (hdt : 0 < dt) (hi : ((ms 0).bodies j.a).i_inv + ((ms 0).bodies j.b).i_inv ≠ 0)
    (hu : Undisturbed ms ts dt k j.a j.b) (n : Nat) :
    relAngle ((ms n).seen (ts n)) j.a j.b = relAngle ((ms 0).seen (ts 0)) j.a j.b - n * (j.rate * dt) := by
  have hd : ∀ n, (ts n).dt ≠ 0 := fun n => by rw [hu.length]; exact hdt.ne'
  have inv : ∀ n, (∃ acc isum, (ms n).joints k = .motor { j with jAcc := acc, iSum := isum }) ∧
      ∀ x, ((ms n).bodies x).i_inv = ((ms 0).bodies x).i_inv := by
    intro n
    induction n with
    | zero => exact ⟨⟨_, _, hk⟩, fun _ => rfl⟩
    | succ n ih =>
      obtain ⟨⟨acc, isum, hj⟩, hx⟩ := ih
      constructor
      · have hc := core_tick (ms n) (ts n) k (hd n) (hu.last n)
        rw [hj, ← hu.step n] at hc
        obtain ⟨acc', hacc⟩ := core_motor (g := (SimpleMotor.preStep ((ms n).seen (ts n)) { j with jAcc := acc, iSum := isum } (ts n).dt).2) hc
        exact ⟨_, _, hacc⟩
      · intro x
        rw [hu.step n, tick_inertia _ _ (hd n), hx]
  induction n with
  | zero => simp
  | succ n ih =>
    obtain ⟨⟨acc, isum, hj⟩, hx⟩ := inv n
    have hlim := hu.unlimited n
    rw [hu.step n, hj] at hlim
    have ca := hu.carried (n + 1) j.a (.inl rfl)
    have cb := hu.carried (n + 1) j.b (.inr rfl)
    rw [hu.step n] at ca cb
    have := C57_motor (ms n) (ts n) (ts (n + 1)) k _ hj hab (by rw [hu.length]; exact hdt) (by rw [hu.length, hu.length]) (hu.last n)
      (by rw [hx, hx]; exact hi) ca cb (by rw [hu.length]; exact hlim)
    rw [← hu.step n, hu.length] at this
    have ba := untouched_bias (ms n) (ts n) j.a (hd n) (hu.untouched n _ (.inl rfl)) (hu.carried n _ (.inl rfl))
    have bb := untouched_bias (ms n) (ts n) j.b (hd n) (hu.untouched n _ (.inr rfl)) (hu.carried n _ (.inr rfl))
    rw [← hu.step n] at ba bb
    simp only [biasTurn, ba.2, bb.2, zero_mul, sub_zero, add_zero] at this
    rw [this, ih]
    push_cast
    ring

end CP
