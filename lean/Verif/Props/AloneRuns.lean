import Verif.Props.Alone

/-! # C62: motors and friction over many steps -/

namespace CP
open GoFloat

theorem nearer_far {r d : ℝ} (h : |r| ≤ d) : nearer r d = 0 := by
  obtain ⟨h1, h2⟩ := abs_le.1 h
  rw [nearer, min_eq_left h2, max_eq_right h1, sub_self]

theorem nearer_near {r d : ℝ} (h : d ≤ |r|) (hd : 0 ≤ d) : |nearer r d| = |r| - d := by
  rcases le_total 0 r with h0 | h0
  · rw [abs_of_nonneg h0] at h ⊢
    rw [nearer, min_eq_right h, max_eq_right (by linarith), abs_of_nonneg (by linarith)]
  · rw [abs_of_nonpos h0] at h ⊢
    rw [nearer, min_eq_left (by linarith), max_eq_left (by linarith), abs_of_nonpos (by linarith)]
    ring

theorem nearer_zero (r : ℝ) : nearer r 0 = r := by
  rw [nearer, neg_zero]
  rcases le_total r 0 with h | h
  · rw [min_eq_left h, max_eq_left h, sub_zero]
  · rw [min_eq_right h, max_self, sub_zero]

theorem nearer_nearer {r d e : ℝ} (hd : 0 ≤ d) (he : 0 ≤ e) : nearer (nearer r d) e = nearer r (d + e) := by
  simp only [nearer]
  rcases le_total r d with h1 | h1
  · rw [min_eq_left h1]
    rcases le_total (-d) r with h2 | h2
    · rw [max_eq_right h2, sub_self, min_eq_left he, max_eq_right (by linarith), min_eq_left (by linarith), max_eq_right (by linarith)]; ring
    · rw [max_eq_left h2, min_eq_left (by linarith), min_eq_left (by linarith)]
      rcases le_total (-e) (r - -d) with h3 | h3
      · rw [max_eq_right h3, max_eq_right (by linarith)]; ring
      · rw [max_eq_left h3, max_eq_left (by linarith)]; ring
  · rw [min_eq_right h1, max_eq_right (by linarith), max_eq_right (by exact le_min (by linarith) (by linarith))]
    rcases le_total (r - d) e with h3 | h3
    · rw [min_eq_left h3, max_eq_right (le_min (by linarith) (by linarith)), min_eq_left (by linarith)]; ring
    · rw [min_eq_right h3, max_eq_right (le_min (by linarith) (by linarith)), min_eq_right (by linarith)]; ring

theorem nearer_scale {r K F : ℝ} (hK : 0 < K) (hF : 0 ≤ F) : r + K * max (-F) (min (-r / K) F) = nearer r (K * F) := by
  have e : K * max (-F) (min (-r / K) F) = max (-(K * F)) (min (-r) (K * F)) := by
    rw [mul_max_of_nonneg _ _ hK.le, mul_min_of_nonneg _ _ hK.le]
    have : K * (-r / K) = -r := by field_simp
    rw [this, mul_neg]
  have h : 0 ≤ K * F := mul_nonneg hK.le hF
  rw [e, nearer]
  generalize K * F = d at *
  rcases le_total r (-d) with h1 | h1
  · rw [min_eq_right (by linarith), min_eq_left (by linarith), max_eq_right (by linarith), max_eq_left h1]; ring
  · rcases le_total r d with h2 | h2
    · rw [min_eq_left (by linarith), min_eq_left h2, max_eq_right (by linarith), max_eq_right h1]; ring
    · rw [min_eq_left (by linarith), min_eq_right h2, max_eq_left (by linarith), max_eq_right (by linarith)]; ring

/-- Without forces and damping a step without contacts and joints leaves the spins. -/
theorem free_spin {m : Motion ℝ} {t : Tick ℝ} (hdt : t.dt ≠ 0) (hn : t.dyn.Nodup) (hd : t.damping = 1) {x : Nat} (hf : (m.bodies x).f = ⟨0, 0⟩ ∧ (m.bodies x).t = 0) :
    ((m.tick t.free).bodies x).w = (m.bodies x).w := by
  obtain ⟨-, a2, a3, a4, -, -, -, a8⟩ := seen_v m t x
  rw [free_bodies m t hdt hn x, hd]
  split
  · rw [Real.one_rpow]
    exact (updateVelocity_unforced _ _ _ (a3.trans hf.1) (a4.trans hf.2)).1.trans a2
  · exact a2

/-- The steps of a sequence after the first are as long as the one before. -/
theorem Swinging.dt {ms : Nat → Motion ℝ} {ts : Nat → Tick ℝ} {dt : ℝ} {k a b : Nat} (S : Swinging ms ts dt k a b) (n : Nat) : (ms (n + 1)).currDt = dt := by
  rw [S.step n, Motion.tick, if_neg (S.sole n).pos.ne']
  exact S.length n

theorem motor_run {ms : Nat → Motion ℝ} {ts : Nat → Tick ℝ} {dt : ℝ} {k : Nat} {j : SimpleMotor ℝ} (S : Swinging ms ts dt k j.a j.b)
    (hj : (ms 0).joints k = .motor j) (hi : 0 < ((ms 0).bodies j.a).i_inv + ((ms 0).bodies j.b).i_inv) (hF : 0 ≤ j.maxForce) (he : (ts 0).Evenly (ms 0) j.jAcc) (n : Nat) :
    (∃ x : ℝ × ℝ, (ms n).joints k = .motor { j with iSum := x.1, jAcc := x.2 } ∧ (ts n).Evenly (ms n) x.2) ∧
    ((ms n).bodies j.b).w - ((ms n).bodies j.a).w + j.rate = nearer (((ms 0).bodies j.b).w - ((ms 0).bodies j.a).w + j.rate)
      (n * ((((ms 0).bodies j.a).i_inv + ((ms 0).bodies j.b).i_inv) * (j.maxForce * dt))) := by
  have hcon : ∀ n, ((ms n).joints k).con.a = j.a ∧ ((ms n).joints k).con.b = j.b := by
    intro n; rw [S.con n, hj]; exact ⟨rfl, rfl⟩
  have hdt : 0 < dt := by have := (S.sole 0).pos; rwa [S.length 0] at this
  obtain ⟨K, hK⟩ : ∃ K, K = ((ms 0).bodies j.a).i_inv + ((ms 0).bodies j.b).i_inv := ⟨_, rfl⟩
  rw [← hK] at hi ⊢
  have hL : 0 ≤ K * (j.maxForce * dt) := mul_nonneg hi.le (mul_nonneg hF hdt.le)
  induction n with
  | zero => exact ⟨⟨(j.iSum, j.jAcc), hj, he⟩, by rw [Nat.cast_zero, zero_mul, nearer_zero]⟩
  | succ n ih =>
    obtain ⟨⟨x, h1, h2⟩, h3⟩ := ih
    have A := S.at hcon n
    have hi' : 0 < ((ms n).bodies j.a).i_inv + ((ms n).bodies j.b).i_inv := by rw [(A.inertia _).2, (A.inertia _).2, ← hK]; exact hi
    have r2 : ∃ x : ℝ × ℝ, ((ms n).tick (ts n)).joints k = .motor { j with iSum := x.1, jAcc := x.2 } :=
      ⟨(_, _), (motor_tick (S.sole n) h1 hi' (S.iterations n)).2⟩
    obtain ⟨y, r2⟩ := r2
    obtain ⟨P, hP, sp, -⟩ := C62_motor (S.sole n) h1 hi' (S.iterations n) hF h2
    refine ⟨⟨y, ?_, .inr ?_⟩, ?_⟩
    · rw [S.step n]; exact r2
    · rw [S.length (n + 1)]; exact S.dt n
    · have fa := free_spin (S.sole n).pos.ne' (S.sole n).dyn (S.damping n) (A.f j.a (.inl rfl))
      have fb := free_spin (S.sole n).pos.ne' (S.sole n).dyn (S.damping n) (A.f j.b (.inr rfl))
      have ff := free_frozen (ms n) (ts n) (S.sole n).pos.ne' (S.sole n).dyn
      have wa := sp.wa
      have wb := sp.wb
      dsimp only at wa wb hP
      rw [fa, (ff _).i_inv, (seen_inertia (ms n) (ts n) _).2, (A.inertia _).2] at wa
      rw [fb, (ff _).i_inv, (seen_inertia (ms n) (ts n) _).2, (A.inertia _).2] at wb
      rw [fa, fb, (A.inertia _).2, (A.inertia _).2, ← hK, S.length n] at hP
      rw [S.step n, wa, wb]
      have e : -j.rate - (((ms n).bodies j.b).w - ((ms n).bodies j.a).w) = -(((ms n).bodies j.b).w - ((ms n).bodies j.a).w + j.rate) := by ring
      rw [e, h3] at hP
      have g := nearer_scale (r := nearer (((ms 0).bodies j.b).w - ((ms 0).bodies j.a).w + j.rate) (n * (K * (j.maxForce * dt)))) hi (mul_nonneg hF hdt.le)
      rw [← hP, nearer_nearer (mul_nonneg (Nat.cast_nonneg _) hL) hL, ← h3] at g
      have e2 : (n : ℝ) * (K * (j.maxForce * dt)) + K * (j.maxForce * dt) = ((n + 1 : ℕ) : ℝ) * (K * (j.maxForce * dt)) := by push_cast; ring
      rw [e2] at g
      rw [← g, hK]; ring

/-- **C62**, motor, many steps: every step brings the spin of body `b` against body `a` nearer to the motor's, by `MaxForce * dt` on the bodies' inertia; it
gets there and never overshoots. -/
theorem C62_motor_spins_up {ms : Nat → Motion ℝ} {ts : Nat → Tick ℝ} {dt : ℝ} {k : Nat} {j : SimpleMotor ℝ} (S : Swinging ms ts dt k j.a j.b)
    (hj : (ms 0).joints k = .motor j) (hi : 0 < ((ms 0).bodies j.a).i_inv + ((ms 0).bodies j.b).i_inv) (hF : 0 ≤ j.maxForce) (he : (ts 0).Evenly (ms 0) j.jAcc) (n : Nat) :
    let off := fun n => ((ms n).bodies j.b).w - ((ms n).bodies j.a).w - -j.rate
    let perStep := (((ms 0).bodies j.a).i_inv + ((ms 0).bodies j.b).i_inv) * (j.maxForce * dt)
    off n = nearer (off 0) (n * perStep) ∧ (|off 0| ≤ n * perStep → off n = 0) ∧ (n * perStep ≤ |off 0| → |off n| = |off 0| - n * perStep) := by
  intro off perStep
  have hdt : 0 < dt := by have := (S.sole 0).pos; rwa [S.length 0] at this
  have h : off n = nearer (off 0) (n * perStep) := by
    have := (motor_run S hj hi hF he n).2
    simp only [off, perStep, sub_neg_eq_add]
    exact this
  refine ⟨h, fun h1 => h.trans (nearer_far h1), fun h1 => ?_⟩
  rw [h, nearer_near h1 (mul_nonneg (Nat.cast_nonneg _) (mul_nonneg hi.le (mul_nonneg hF hdt.le)))]

/-- **C62**, motor, many steps: a motor with any force reaches its rate. -/
theorem C62_motor_arrives {ms : Nat → Motion ℝ} {ts : Nat → Tick ℝ} {dt : ℝ} {k : Nat} {j : SimpleMotor ℝ} (S : Swinging ms ts dt k j.a j.b)
    (hj : (ms 0).joints k = .motor j) (hi : 0 < ((ms 0).bodies j.a).i_inv + ((ms 0).bodies j.b).i_inv) (hF : 0 < j.maxForce) (he : (ts 0).Evenly (ms 0) j.jAcc) :
    ∃ N, ∀ n, N ≤ n → ((ms n).bodies j.b).w - ((ms n).bodies j.a).w = -j.rate := by
  have hdt : 0 < dt := by have := (S.sole 0).pos; rwa [S.length 0] at this
  have hL : 0 < (((ms 0).bodies j.a).i_inv + ((ms 0).bodies j.b).i_inv) * (j.maxForce * dt) := mul_pos hi (mul_pos hF hdt)
  obtain ⟨N, hN⟩ := exists_nat_ge (|((ms 0).bodies j.b).w - ((ms 0).bodies j.a).w - -j.rate| / ((((ms 0).bodies j.a).i_inv + ((ms 0).bodies j.b).i_inv) * (j.maxForce * dt)))
  refine ⟨N, fun n hn => ?_⟩
  have h := (C62_motor_spins_up S hj hi hF.le he n).2.1 ?_
  · exact sub_eq_zero.1 h
  · rw [div_le_iff₀ hL] at hN
    exact hN.trans (mul_le_mul_of_nonneg_right (Nat.cast_le.2 hn) hL.le)

theorem gear_run {ms : Nat → Motion ℝ} {ts : Nat → Tick ℝ} {dt : ℝ} {k : Nat} {j : GearJoint ℝ} (S : Swinging ms ts dt k j.a j.b)
    (hj : (ms 0).joints k = .gear j) (hr : j.ratio_inv = 1 / j.ratio) (hr0 : j.ratio ≠ 0) (hK0 : 0 < ((ms 0).bodies j.a).i_inv * j.ratio_inv + j.ratio * ((ms 0).bodies j.b).i_inv)
    (hF : 0 ≤ j.maxForce) (hM : j.maxBias = 0) (he : (ts 0).Evenly (ms 0) j.jAcc) (n : Nat) :
    (∃ x : ℝ × ℝ × ℝ, (ms n).joints k = .gear { j with iSum := x.1, bias := x.2.1, jAcc := x.2.2 } ∧ (ts n).Evenly (ms n) x.2.2) ∧
    ((ms n).bodies j.b).w * j.ratio - ((ms n).bodies j.a).w = nearer (((ms 0).bodies j.b).w * j.ratio - ((ms 0).bodies j.a).w)
      (n * ((((ms 0).bodies j.a).i_inv * j.ratio_inv + j.ratio * ((ms 0).bodies j.b).i_inv) * (j.maxForce * dt))) := by
  have hcon : ∀ n, ((ms n).joints k).con.a = j.a ∧ ((ms n).joints k).con.b = j.b := by
    intro n; rw [S.con n, hj]; exact ⟨rfl, rfl⟩
  have hdt : 0 < dt := by have := (S.sole 0).pos; rwa [S.length 0] at this
  obtain ⟨K, hK⟩ : ∃ K, K = ((ms 0).bodies j.a).i_inv * j.ratio_inv + j.ratio * ((ms 0).bodies j.b).i_inv := ⟨_, rfl⟩
  rw [← hK] at hK0 ⊢
  have hL : 0 ≤ K * (j.maxForce * dt) := mul_nonneg hK0.le (mul_nonneg hF hdt.le)
  induction n with
  | zero => exact ⟨⟨(j.iSum, j.bias, j.jAcc), hj, he⟩, by rw [Nat.cast_zero, zero_mul, nearer_zero]⟩
  | succ n ih =>
    obtain ⟨⟨x, h1, h2⟩, h3⟩ := ih
    have A := S.at hcon n
    have hi' : ((ms n).bodies j.a).i_inv * j.ratio_inv + j.ratio * ((ms n).bodies j.b).i_inv ≠ 0 := by rw [(A.inertia _).2, (A.inertia _).2, ← hK]; exact hK0.ne'
    have r2 : ∃ x : ℝ × ℝ × ℝ, ((ms n).tick (ts n)).joints k = .gear { j with iSum := x.1, bias := x.2.1, jAcc := x.2.2 } :=
      ⟨(_, _, _), (gear_tick (S.sole n) h1 hi' (S.iterations n)).2⟩
    obtain ⟨y, r2⟩ := r2
    obtain ⟨P, hP, sp, -⟩ := C62_gear (S.sole n) h1 hi' (S.iterations n) hF hM.ge h2
    refine ⟨⟨y, ?_, .inr ?_⟩, ?_⟩
    · rw [S.step n]; exact r2
    · rw [S.length (n + 1)]; exact S.dt n
    · have fa := free_spin (S.sole n).pos.ne' (S.sole n).dyn (S.damping n) (A.f j.a (.inl rfl))
      have fb := free_spin (S.sole n).pos.ne' (S.sole n).dyn (S.damping n) (A.f j.b (.inr rfl))
      have ff := free_frozen (ms n) (ts n) (S.sole n).pos.ne' (S.sole n).dyn
      have wa := sp.wa
      have wb := sp.wb
      have hg : ∀ e, Con.goal j.toCon (ts n).dt e = 0 := by
        intro e; rw [Con.goal, hM, neg_zero]; exact max_eq_left (min_le_right _ _)
      dsimp only at wa wb hP
      rw [fa, (ff _).i_inv, (seen_inertia (ms n) (ts n) _).2, (A.inertia _).2] at wa
      rw [fb, (ff _).i_inv, (seen_inertia (ms n) (ts n) _).2, (A.inertia _).2] at wb
      rw [hg, fa, fb, (A.inertia _).2, (A.inertia _).2, ← hK, S.length n, zero_sub, h3] at hP
      rw [S.step n, wa, wb]
      have g := nearer_scale (r := nearer (((ms 0).bodies j.b).w * j.ratio - ((ms 0).bodies j.a).w) (n * (K * (j.maxForce * dt)))) hK0 (mul_nonneg hF hdt.le)
      rw [← hP, nearer_nearer (mul_nonneg (Nat.cast_nonneg _) hL) hL, ← h3] at g
      have e2 : (n : ℝ) * (K * (j.maxForce * dt)) + K * (j.maxForce * dt) = ((n + 1 : ℕ) : ℝ) * (K * (j.maxForce * dt)) := by push_cast; ring
      rw [e2] at g
      rw [← g, hK]; ring

/-- **C62**, gear as angular friction (`MaxBias` 0), many steps: every step brings the spins nearer to the ratio, by `MaxForce * dt` on the bodies' inertia; they
get there and stay. -/
theorem C62_gear_friction {ms : Nat → Motion ℝ} {ts : Nat → Tick ℝ} {dt : ℝ} {k : Nat} {j : GearJoint ℝ} (S : Swinging ms ts dt k j.a j.b)
    (hj : (ms 0).joints k = .gear j) (hr : j.ratio_inv = 1 / j.ratio) (hr0 : 0 < j.ratio) (hi : 0 ≤ ((ms 0).bodies j.a).i_inv) (hi' : 0 < ((ms 0).bodies j.b).i_inv)
    (hF : 0 ≤ j.maxForce) (hM : j.maxBias = 0) (he : (ts 0).Evenly (ms 0) j.jAcc) (n : Nat) :
    let off := fun n => ((ms n).bodies j.b).w * j.ratio - ((ms n).bodies j.a).w
    let perStep := (((ms 0).bodies j.a).i_inv / j.ratio + j.ratio * ((ms 0).bodies j.b).i_inv) * (j.maxForce * dt)
    off n = nearer (off 0) (n * perStep) ∧ (|off 0| ≤ n * perStep → off n = 0) ∧ (n * perStep ≤ |off 0| → |off n| = |off 0| - n * perStep) := by
  intro off perStep
  have hdt : 0 < dt := by have := (S.sole 0).pos; rwa [S.length 0] at this
  have eK : ((ms 0).bodies j.a).i_inv * j.ratio_inv + j.ratio * ((ms 0).bodies j.b).i_inv = ((ms 0).bodies j.a).i_inv / j.ratio + j.ratio * ((ms 0).bodies j.b).i_inv := by
    rw [hr]; ring
  have hK : 0 < ((ms 0).bodies j.a).i_inv / j.ratio + j.ratio * ((ms 0).bodies j.b).i_inv := by
    have h1 := div_nonneg hi hr0.le
    have h2 := mul_pos hr0 hi'
    linarith
  have h : off n = nearer (off 0) (n * perStep) := by
    have := (gear_run S hj hr hr0.ne' (by rw [eK]; exact hK) hF hM he n).2
    rw [eK] at this
    exact this
  refine ⟨h, fun h1 => h.trans (nearer_far h1), fun h1 => ?_⟩
  rw [h, nearer_near h1 (mul_nonneg (Nat.cast_nonneg _) (mul_nonneg hK.le (mul_nonneg hF hdt.le)))]

end CP
