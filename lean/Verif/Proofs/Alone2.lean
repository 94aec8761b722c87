import Verif.Proofs.Alone

/-! # Joints that are alone on their bodies: limits, ratchets, pins and pivots -/

namespace CP
open GoFloat

theorem spin_none (h : Bodies ℝ) {a b : Nat} (hab : a ≠ b) : Spun h h a b 1 0 := by
  constructor <;> simp

theorem spin_zero (h : Bodies ℝ) (a b : Nat) (c : ℝ) : applySpin h a b (fun A => 0 * c * A.i_inv) (fun B => 0 * c * B.i_inv) = h := by
  funext z
  simp only [applySpin, Bodies.set]
  by_cases e1 : z = b
  · by_cases e3 : b = a
    · subst e1; simp [e3]
    · simp [e1, e3]
  · by_cases e2 : z = a
    · subst e2; simp [e1]
    · simp [e1, e2]

/-- The rotary limit, when it is in use. -/
theorem limit_tick {m : Motion ℝ} {t : Tick ℝ} {k : Nat} {j : RotaryLimitJoint ℝ} (hs : t.Sole m k) (hk : m.joints k = .rotaryLimit j)
    (hi : 0 < (m.bodies j.a).i_inv + (m.bodies j.b).i_inv) (hit : 0 < t.iterations) (v : ℝ) (hv : (j.preStep (m.seen t) t.dt).2.bias = v) (hv0 : v ≠ 0) :
    let free := (m.tick t.free).bodies
    let K := (m.bodies j.a).i_inv + (m.bodies j.b).i_inv
    let N := (m.share t - 1) * j.jAcc
    let X := -(v + ((free j.b).w - (free j.a).w)) / K - N
    let J := if v < 0 then clamp X 0 (j.maxForce * t.dt) else clamp X (-(j.maxForce * t.dt)) 0
    Spun free (m.tick t).bodies j.a j.b 1 (J + N) ∧ (m.tick t).joints k = .rotaryLimit { j with iSum := 1 / K, bias := v, jAcc := J } := by
  intro free K N X J
  have hab : j.a ≠ j.b := by have := hs.ne; rw [hk] at this; exact this
  have ff := free_frozen m t hs.pos.ne' hs.dyn
  have ia : (free j.a).i_inv = (m.bodies j.a).i_inv := (ff j.a).i_inv.trans (seen_inertia m t _).2
  have ib : (free j.b).i_inv = (m.bodies j.b).i_inv := (ff j.b).i_inv.trans (seen_inertia m t _).2
  have hK : K ≠ 0 := hi.ne'
  have hpre : (j.preStep (m.seen t) t.dt).2 = { j with iSum := 1 / K, bias := v, jAcc := j.jAcc } := by
    have eK : (m.seen t j.a).i_inv + (m.seen t j.b).i_inv = K := by rw [(seen_inertia m t _).2, (seen_inertia m t _).2]
    have hv' : clamp (-biasCoef j.errorBias t.dt * (if j.max < (m.seen t j.b).a - (m.seen t j.a).a then j.max - ((m.seen t j.b).a - (m.seen t j.a).a)
      else if (m.seen t j.b).a - (m.seen t j.a).a < j.min then j.min - ((m.seen t j.b).a - (m.seen t j.a).a) else 0) / t.dt) (-j.maxBias) j.maxBias = v := hv
    simp only [RotaryLimitJoint.preStep, eK, hv', hv0, if_false]
  obtain ⟨h1, h2, h3⟩ := pushed_tick hs hit (a := j.a) (b := j.b) (fun A : ℝ => .rotaryLimit { j with iSum := 1 / K, bias := v, jAcc := A })
    (fun A => applySpin free j.a j.b (fun B => (A + N) * B.i_inv) (fun B => (A + N) * B.i_inv)) j.jAcc J (by rw [hk]; rfl) (by rw [hk]; rfl)
    (by
      rw [setup_free hs (by rw [hk]; rfl), hk]
      have e : j.jAcc + N = j.jAcc * m.share t := by simp only [N]; ring
      simp only [Joint.preStep, hpre, Prod.map, Joint.applyCached, RotaryLimitJoint.applyCached, id, e]
      rfl)
    (by
      intro A
      obtain ⟨s1, s2⟩ := spin_apply free j.a j.b hab (fun B => (A + N) * B.i_inv) (fun B => (A + N) * B.i_inv)
      have eX : A + -(v + (((applySpin free j.a j.b (fun B => (A + N) * B.i_inv) (fun B => (A + N) * B.i_inv)) j.b).w -
          ((applySpin free j.a j.b (fun B => (A + N) * B.i_inv) (fun B => (A + N) * B.i_inv)) j.a).w)) * (1 / K) = X := by
        simp only [X]
        rw [s1, s2, ia, ib]
        have : ((m.bodies j.a).i_inv + (m.bodies j.b).i_inv) = K := rfl
        field_simp
        linear_combination (-A - N) * this
      simp only [Joint.applyImpulse, RotaryLimitJoint.applyImpulse, Prod.map, id, if_neg hv0]
      rw [eX, spin_add free hab]
      change (applySpin free j.a j.b (fun B => (A + N + (J - A)) * B.i_inv) (fun B => (A + N + (J - A)) * B.i_inv), _) = _
      have : A + N + (J - A) = J + N := by ring
      rw [this])
  exact ⟨(spin_spun free hab (J + N)).of h2 h3, h1⟩

/-- The rotary limit, when it is not in use. -/
theorem limit_idle {m : Motion ℝ} {t : Tick ℝ} {k : Nat} {j : RotaryLimitJoint ℝ} (hs : t.Sole m k) (hk : m.joints k = .rotaryLimit j)
    (hit : 0 < t.iterations) (hv : (j.preStep (m.seen t) t.dt).2.bias = 0) :
    Spun (m.tick t.free).bodies (m.tick t).bodies j.a j.b 1 0 ∧ ((m.tick t).joints k).getImpulse = 0 := by
  have hab : j.a ≠ j.b := by have := hs.ne; rw [hk] at this; exact this
  obtain ⟨jp, hjp⟩ : ∃ jp, jp = (j.preStep (m.seen t) t.dt).2 := ⟨_, rfl⟩
  have hacc : jp.jAcc = 0 := by
    rw [hjp]
    have hv' : clamp (-biasCoef j.errorBias t.dt * (if j.max < (m.seen t j.b).a - (m.seen t j.a).a then j.max - ((m.seen t j.b).a - (m.seen t j.a).a)
      else if (m.seen t j.b).a - (m.seen t j.a).a < j.min then j.min - ((m.seen t j.b).a - (m.seen t j.a).a) else 0) / t.dt) (-j.maxBias) j.maxBias = 0 := hv
    simp only [RotaryLimitJoint.preStep, hv', if_true]
  rw [← hjp] at hv
  obtain ⟨h1, h2, h3⟩ := pushed_tick hs hit (a := j.a) (b := j.b) (V := Unit) (fun _ => .rotaryLimit jp) (fun _ => (m.tick t.free).bodies) () ()
    (by rw [hk]; rfl) (by rw [hk]; rfl)
    (by
      rw [setup_free hs (by rw [hk]; rfl), hk]
      have e : (Joint.rotaryLimit j).preStep (m.seen t) t.dt = ((j.preStep (m.seen t) t.dt).1, .rotaryLimit jp) := by rw [hjp]; rfl
      rw [e]
      simp only [Prod.map, Joint.applyCached, RotaryLimitJoint.applyCached, id, hacc, spin_zero])
    (by
      intro A
      simp only [Joint.applyImpulse, RotaryLimitJoint.applyImpulse, Prod.map, id, if_pos hv])
  refine ⟨(spin_none _ hab).of h2 h3, ?_⟩
  rw [h1]
  simp only [Joint.getImpulse, RotaryLimitJoint.getImpulse, hacc]
  simp

/-- The ratchet, when it is in use. -/
theorem ratchet_tick {m : Motion ℝ} {t : Tick ℝ} {k : Nat} {j : RatchetJoint ℝ} (hs : t.Sole m k) (hk : m.joints k = .ratchet j)
    (hi : 0 < (m.bodies j.a).i_inv + (m.bodies j.b).i_inv) (hit : 0 < t.iterations) (v : ℝ) (hv : (j.preStep (m.seen t) t.dt).2.bias = v) (hv0 : v ≠ 0) :
    let free := (m.tick t.free).bodies
    let K := (m.bodies j.a).i_inv + (m.bodies j.b).i_inv
    let N := (m.share t - 1) * j.jAcc
    let X := -(v + ((free j.b).w - (free j.a).w)) / K - N
    let J := clamp (X * j.ratchet) 0 (j.maxForce * t.dt * |j.ratchet|) / j.ratchet
    Spun free (m.tick t).bodies j.a j.b 1 (J + N) ∧ ((m.tick t).joints k).getImpulse = |J| := by
  intro free K N X J
  have hab : j.a ≠ j.b := by have := hs.ne; rw [hk] at this; exact this
  have ff := free_frozen m t hs.pos.ne' hs.dyn
  have ia : (free j.a).i_inv = (m.bodies j.a).i_inv := (ff j.a).i_inv.trans (seen_inertia m t _).2
  have ib : (free j.b).i_inv = (m.bodies j.b).i_inv := (ff j.b).i_inv.trans (seen_inertia m t _).2
  have hK : K ≠ 0 := hi.ne'
  obtain ⟨jp, hjp⟩ : ∃ jp, jp = (j.preStep (m.seen t) t.dt).2 := ⟨_, rfl⟩
  have p1 : jp.iSum = 1 / K := by
    rw [hjp]
    have eK : (m.seen t j.a).i_inv + (m.seen t j.b).i_inv = K := by rw [(seen_inertia m t _).2, (seen_inertia m t _).2]
    simp only [RatchetJoint.preStep, eK]
  have p2 : jp.jAcc = j.jAcc := by
    have : jp.jAcc = if jp.bias = 0 then 0 else j.jAcc := by rw [hjp]; rfl
    rw [this, hjp, hv, if_neg hv0]
  have p3 : jp.a = j.a ∧ jp.b = j.b ∧ jp.ratchet = j.ratchet ∧ jp.maxForce = j.maxForce := by rw [hjp]; exact ⟨rfl, rfl, rfl, rfl⟩
  rw [← hjp] at hv
  obtain ⟨h1, h2, h3⟩ := pushed_tick hs hit (a := j.a) (b := j.b) (fun A : ℝ => .ratchet { jp with jAcc := A })
    (fun A => applySpin free j.a j.b (fun B => (A + N) * B.i_inv) (fun B => (A + N) * B.i_inv)) j.jAcc J (by rw [hk]; rfl) (by rw [hk]; rfl)
    (by
      rw [setup_free hs (by rw [hk]; rfl), hk]
      have e : j.jAcc + N = j.jAcc * m.share t := by simp only [N]; ring
      have e' : (Joint.ratchet j).preStep (m.seen t) t.dt = ((j.preStep (m.seen t) t.dt).1, .ratchet jp) := by rw [hjp]; rfl
      rw [e']
      simp only [Prod.map, Joint.applyCached, RatchetJoint.applyCached, id, e, p2, p3.1, p3.2.1]
      rw [← p2])
    (by
      intro A
      obtain ⟨s1, s2⟩ := spin_apply free j.a j.b hab (fun B => (A + N) * B.i_inv) (fun B => (A + N) * B.i_inv)
      have eX : A + -(v + (((applySpin free j.a j.b (fun B => (A + N) * B.i_inv) (fun B => (A + N) * B.i_inv)) j.b).w -
          ((applySpin free j.a j.b (fun B => (A + N) * B.i_inv) (fun B => (A + N) * B.i_inv)) j.a).w)) * (1 / K) = X := by
        simp only [X]
        rw [s1, s2, ia, ib]
        have : ((m.bodies j.a).i_inv + (m.bodies j.b).i_inv) = K := rfl
        field_simp
        linear_combination (-A - N) * this
      simp only [Joint.applyImpulse, RatchetJoint.applyImpulse, Prod.map, id, p1, p3.1, p3.2.1, p3.2.2.1, p3.2.2.2, hv, if_neg hv0, fabs_real]
      rw [eX, spin_add free hab]
      change (applySpin free j.a j.b (fun B => (A + N + (J - A)) * B.i_inv) (fun B => (A + N + (J - A)) * B.i_inv), _) = _
      have : A + N + (J - A) = J + N := by ring
      rw [this])
  refine ⟨(spin_spun free hab (J + N)).of h2 h3, ?_⟩
  rw [h1]
  simp only [Joint.getImpulse, RatchetJoint.getImpulse, fabs_real]

/-- The ratchet, when it is not in use. -/
theorem ratchet_idle {m : Motion ℝ} {t : Tick ℝ} {k : Nat} {j : RatchetJoint ℝ} (hs : t.Sole m k) (hk : m.joints k = .ratchet j)
    (hit : 0 < t.iterations) (hv : (j.preStep (m.seen t) t.dt).2.bias = 0) :
    Spun (m.tick t.free).bodies (m.tick t).bodies j.a j.b 1 0 ∧ ((m.tick t).joints k).getImpulse = 0 := by
  have hab : j.a ≠ j.b := by have := hs.ne; rw [hk] at this; exact this
  obtain ⟨jp, hjp⟩ : ∃ jp, jp = (j.preStep (m.seen t) t.dt).2 := ⟨_, rfl⟩
  have p2 : jp.jAcc = 0 := by
    have : jp.jAcc = if jp.bias = 0 then 0 else j.jAcc := by rw [hjp]; rfl
    rw [this, hjp, hv, if_pos rfl]
  rw [← hjp] at hv
  obtain ⟨h1, h2, h3⟩ := pushed_tick hs hit (a := j.a) (b := j.b) (V := Unit) (fun _ => .ratchet jp) (fun _ => (m.tick t.free).bodies) () ()
    (by rw [hk]; rfl) (by rw [hk]; rfl)
    (by
      rw [setup_free hs (by rw [hk]; rfl), hk]
      have e : (Joint.ratchet j).preStep (m.seen t) t.dt = ((j.preStep (m.seen t) t.dt).1, .ratchet jp) := by rw [hjp]; rfl
      rw [e]
      simp only [Prod.map, Joint.applyCached, RatchetJoint.applyCached, id, p2, spin_zero])
    (by
      intro A
      simp only [Joint.applyImpulse, RatchetJoint.applyImpulse, Prod.map, id, if_pos hv])
  refine ⟨(spin_none _ hab).of h2 h3, ?_⟩
  rw [h1]
  simp only [Joint.getImpulse, RatchetJoint.getImpulse, p2]
  simp

end CP
