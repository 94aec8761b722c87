import Verif.Proofs.JointLast
import Verif.Proofs.Motion2

/-! # How a joint's error shrinks: the parts -/

namespace CP
open GoFloat

theorem seen_inertia (m : Motion ℝ) (t : Tick ℝ) (x : Nat) : (m.seen t x).m_inv = (m.bodies x).m_inv ∧ (m.seen t x).i_inv = (m.bodies x).i_inv := by
  have key : ∀ (l : List Nat) (h : Bodies ℝ), (Motion.move h t.dt l x).m_inv = (h x).m_inv ∧ (Motion.move h t.dt l x).i_inv = (h x).i_inv := by
    intro l
    induction l with
    | nil => exact fun _ => ⟨rfl, rfl⟩
    | cons k l ih =>
      intro h
      obtain ⟨h1, h2⟩ := ih (h.set k ((h k).updatePosition t.dt))
      have : Motion.move h t.dt (k :: l) = Motion.move (h.set k ((h k).updatePosition t.dt)) t.dt l := rfl
      rw [this, h1, h2]
      simp only [Bodies.set]
      by_cases e : x = k
      · rw [if_pos e, e]; exact ⟨rfl, rfl⟩
      · rw [if_neg e]; exact ⟨rfl, rfl⟩
  exact key _ _

theorem tick_frozen (m : Motion ℝ) (t : Tick ℝ) (hdt : t.dt ≠ 0) (x : Nat) : Frozen (m.seen t x) ((m.tick t).bodies x) := by
  have S0 : Stays m (m.seen t) { bodies := m.seen t, joints := m.joints, arbs := t.contact } := ⟨fun x => .refl _, fun i => rfl⟩
  have := (S0.run (Solver.stepProgram t.arbs t.joints t.dyn t.iterations t.dt m.currDt t.slop t.collisionBias t.damping t.gravity)).frozen x
  simp only [Motion.tick, if_neg hdt]
  exact this

/-- The angle after the next step's movement. -/
theorem carried_angle {t : Tick ℝ} {m : Motion ℝ} {x : Nat} (hc : t.Carries m.bodies x) :
    (m.seen t x).a = (m.bodies x).a + ((m.bodies x).w + (m.bodies x).w_bias) * t.dt := by
  obtain ⟨hn, hc⟩ := hc
  rw [Motion.seen, move_apply _ _ hn]
  split
  · rfl
  · rcases hc with h | ⟨-, h2, -, h4⟩
    · contradiction
    · rw [h2, h4]; ring

theorem core_gear {j : Joint ℝ} {g : GearJoint ℝ} (h : j.core = (Joint.gear g).core) : ∃ acc, j = .gear { g with jAcc := acc } := by
  cases j with
  | gear j =>
    simp only [Joint.core, Joint.gear.injEq] at h
    refine ⟨j.jAcc, ?_⟩
    cases j; cases g
    simp only [GearJoint.mk.injEq] at h ⊢
    simp only [Joint.gear.injEq, GearJoint.mk.injEq]
    tauto
  | _ => simp [Joint.core] at h

theorem core_motor {j : Joint ℝ} {g : SimpleMotor ℝ} (h : j.core = (Joint.motor g).core) : ∃ acc, j = .motor { g with jAcc := acc } := by
  cases j with
  | motor j =>
    simp only [Joint.core, Joint.motor.injEq] at h
    refine ⟨j.jAcc, ?_⟩
    cases j; cases g
    simp only [SimpleMotor.mk.injEq] at h ⊢
    simp only [Joint.motor.injEq, SimpleMotor.mk.injEq]
    tauto
  | _ => simp [Joint.core] at h

theorem core_limit {j : Joint ℝ} {g : RotaryLimitJoint ℝ} (h : j.core = (Joint.rotaryLimit g).core) : ∃ acc, j = .rotaryLimit { g with jAcc := acc } := by
  cases j with
  | rotaryLimit j =>
    simp only [Joint.core, Joint.rotaryLimit.injEq] at h
    refine ⟨j.jAcc, ?_⟩
    cases j; cases g
    simp only [RotaryLimitJoint.mk.injEq] at h ⊢
    simp only [Joint.rotaryLimit.injEq, RotaryLimitJoint.mk.injEq]
    tauto
  | _ => simp [Joint.core] at h

theorem core_ratchet {j : Joint ℝ} {g : RatchetJoint ℝ} (h : j.core = (Joint.ratchet g).core) : ∃ acc, j = .ratchet { g with jAcc := acc } := by
  cases j with
  | ratchet j =>
    simp only [Joint.core, Joint.ratchet.injEq] at h
    refine ⟨j.jAcc, ?_⟩
    cases j; cases g
    simp only [RatchetJoint.mk.injEq] at h ⊢
    simp only [Joint.ratchet.injEq, RatchetJoint.mk.injEq]
    tauto
  | _ => simp [Joint.core] at h

theorem core_pivot {j : Joint ℝ} {g : PivotJoint ℝ} (h : j.core = (Joint.pivot g).core) : ∃ acc, j = .pivot { g with jAcc := acc } := by
  cases j with
  | pivot j =>
    simp only [Joint.core, Joint.pivot.injEq] at h
    refine ⟨j.jAcc, ?_⟩
    cases j; cases g
    simp only [PivotJoint.mk.injEq] at h ⊢
    simp only [Joint.pivot.injEq, PivotJoint.mk.injEq]
    tauto
  | _ => simp [Joint.core] at h

theorem core_pin {j : Joint ℝ} {g : PinJoint ℝ} (h : j.core = (Joint.pin g).core) : ∃ acc, j = .pin { g with jnAcc := acc } := by
  cases j with
  | pin j =>
    simp only [Joint.core, Joint.pin.injEq] at h
    refine ⟨j.jnAcc, ?_⟩
    cases j; cases g
    simp only [PinJoint.mk.injEq] at h ⊢
    simp only [Joint.pin.injEq, PinJoint.mk.injEq]
    tauto
  | _ => simp [Joint.core] at h

theorem frozen_same {h0 h : Bodies ℝ} (hf : ∀ x, Frozen (h0 x) (h x)) (a b : Nat) : SameInertia h0 h a b :=
  ⟨(hf a).m_inv, (hf b).m_inv, (hf a).i_inv, (hf b).i_inv⟩

theorem limit_neg (y c : ℝ) (hc : 0 ≤ c) : max (-c) (min (-y) c) = -max (-c) (min y c) := by
  have hcc : -c ≤ c := by linarith
  rcases le_total y c with h1 | h1
  · rw [min_eq_left h1, max_eq_right (le_min (neg_le_neg h1) hcc)]
    rcases le_total (-c) y with h2 | h2
    · rw [max_eq_right h2, min_eq_left (by linarith)]
    · rw [max_eq_left h2, min_eq_right (by linarith)]; ring
  · rw [min_eq_right h1, max_eq_right hcc, min_eq_left (by linarith : -y ≤ c), max_eq_left (by linarith)]

/-- The limited correction of one step, times the step. -/
theorem clamp_bias (r e M dt : ℝ) (hdt : 0 < dt) (hM : 0 ≤ M) :
    e + clamp (-(1 - r) * e / dt) (-M) M * dt = leftover r (M * dt) e := by
  have hMd : 0 ≤ M * dt := mul_nonneg hM hdt.le
  rw [clamp_eq_real _ _ _ (by linarith), leftover]
  have e1 : max (-M) (min (-(1 - r) * e / dt) M) * dt = max (-(M * dt)) (min (-((1 - r) * e)) (M * dt)) := by
    rw [max_mul_of_nonneg _ _ hdt.le, min_mul_of_nonneg _ _ hdt.le, div_mul_cancel₀ _ hdt.ne']
    congr 1 <;> ring_nf
  rw [e1, sub_eq_add_neg]
  congr 1
  generalize (1 - r) * e = y
  generalize M * dt = c at *
  exact limit_neg y c hMd

theorem leftover_neg (r c e : ℝ) (hc : 0 ≤ c) : leftover r c (-e) = -leftover r c e := by
  simp only [leftover]
  have : (1 - r) * -e = -((1 - r) * e) := by ring
  rw [this]
  generalize (1 - r) * e = y
  rw [limit_neg y c hc]
  ring

/-! ### One-sided joints -/

/-- The impulse of a joint that may only push one way, when `MaxForce` does not bind. -/
theorem clamp_pos (x M : ℝ) (h : |clamp x 0 M| < M) : x ≤ clamp x 0 M ∧ (0 < |clamp x 0 M| → clamp x 0 M = x) := by
  have hM : 0 < M := lt_of_le_of_lt (abs_nonneg _) h
  rw [clamp_eq_real _ _ _ hM.le] at h ⊢
  rw [abs_of_nonneg (le_max_left _ _)] at h ⊢
  have h1 : min x M < M := (max_lt_iff.1 h).2
  have h2 : min x M = x := by
    rcases min_lt_iff.1 h1 with q | q
    · exact min_eq_left q.le
    · exact absurd q (lt_irrefl _)
  rw [h2]
  refine ⟨le_max_right _ _, fun h3 => ?_⟩
  rcases lt_max_iff.1 h3 with q | q
  · exact absurd q (lt_irrefl _)
  · exact max_eq_right q.le

theorem clamp_nonpos (x M : ℝ) (h : |clamp x (-M) 0| < M) : clamp x (-M) 0 ≤ x ∧ (0 < |clamp x (-M) 0| → clamp x (-M) 0 = x) := by
  have hM : 0 < M := lt_of_le_of_lt (abs_nonneg _) h
  rw [clamp_eq_real _ _ _ (by linarith)] at h ⊢
  have hle : max (-M) (min x 0) ≤ 0 := max_le (by linarith) (min_le_right _ _)
  rw [abs_of_nonpos hle] at h ⊢
  have h1 : max (-M) (min x 0) = min x 0 := by
    rcases le_total (-M) (min x 0) with q | q
    · exact max_eq_right q
    · rw [max_eq_left q] at h; linarith
  rw [h1]
  refine ⟨min_le_left _ _, fun h3 => ?_⟩
  rcases le_total x 0 with q | q
  · exact min_eq_left q
  · rw [min_eq_right q] at h3; linarith

/-- **C19** for the rotary limit, also when the joint need not push: the spin is on the right side of the target. -/
theorem limit_spin (dt : ℝ) (j : RotaryLimitJoint ℝ) (h0 h : Bodies ℝ) (hab : j.a ≠ j.b) (hi : SameInertia h0 h j.a j.b)
    (hk : 0 < (h0 j.a).i_inv + (h0 j.b).i_inv) (acc : ℝ) (jp : RotaryLimitJoint ℝ) (hjp : jp = { (j.preStep h0 dt).2 with jAcc := acc })
    (hlim : (jp.applyImpulse h dt).2.getImpulse < j.maxForce * dt) :
    (0 < jp.bias → ((jp.applyImpulse h dt).1 j.b).w - ((jp.applyImpulse h dt).1 j.a).w ≤ -jp.bias) ∧
    (jp.bias < 0 → -jp.bias ≤ ((jp.applyImpulse h dt).1 j.b).w - ((jp.applyImpulse h dt).1 j.a).w) ∧
    (jp.bias ≠ 0 → 0 < (jp.applyImpulse h dt).2.getImpulse → ((jp.applyImpulse h dt).1 j.b).w - ((jp.applyImpulse h dt).1 j.a).w = -jp.bias) := by
  have his : jp.iSum = 1 / ((h0 j.a).i_inv + (h0 j.b).i_inv) := by subst hjp; rfl
  have ha : jp.a = j.a := by subst hjp; rfl
  have hb : jp.b = j.b := by subst hjp; rfl
  have hmf : jp.maxForce = j.maxForce := by subst hjp; rfl
  refine ⟨fun hp => ?_, fun hn => ?_, fun hne hpos => C19_rotaryLimit dt j h0 h hab hi hk.ne' acc jp hjp hne ⟨hpos, hlim⟩⟩
  · simp only [RotaryLimitJoint.applyImpulse, RotaryLimitJoint.getImpulse, fabs_real, hmf, if_neg hp.ne', if_neg (not_lt.2 hp.le)] at hlim ⊢
    have hcl := (clamp_nonpos _ _ hlim).1
    rw [ha, hb, (spin_apply h j.a j.b hab _ _).1, (spin_apply h j.a j.b hab _ _).2, hi.ia, hi.ib]
    rw [ha, hb] at hcl
    have hsol := solve_div (-(jp.bias + ((h j.b).w - (h j.a).w))) _ hk.ne'
    rw [← his] at hsol
    nlinarith [mul_le_mul_of_nonneg_right hcl hk.le]
  · simp only [RotaryLimitJoint.applyImpulse, RotaryLimitJoint.getImpulse, fabs_real, hmf, if_neg hn.ne, if_pos hn] at hlim ⊢
    have hcl := (clamp_pos _ _ hlim).1
    rw [ha, hb, (spin_apply h j.a j.b hab _ _).1, (spin_apply h j.a j.b hab _ _).2, hi.ia, hi.ib]
    rw [ha, hb] at hcl
    have hsol := solve_div (-(jp.bias + ((h j.b).w - (h j.a).w))) _ hk.ne'
    rw [← his] at hsol
    nlinarith [mul_le_mul_of_nonneg_right hcl hk.le]

/-- The same for the ratchet: it pushes in its own direction only. -/
theorem ratchet_spin (dt : ℝ) (j : RatchetJoint ℝ) (h0 h : Bodies ℝ) (hab : j.a ≠ j.b) (hi : SameInertia h0 h j.a j.b) (hr : j.ratchet ≠ 0)
    (hk : 0 < (h0 j.a).i_inv + (h0 j.b).i_inv) (acc : ℝ) (jp : RatchetJoint ℝ) (hjp : jp = { (j.preStep h0 dt).2 with jAcc := acc })
    (hne : jp.bias ≠ 0) (hlim : (jp.applyImpulse h dt).2.getImpulse < j.maxForce * dt) :
    -jp.bias * j.ratchet ≤ (((jp.applyImpulse h dt).1 j.b).w - ((jp.applyImpulse h dt).1 j.a).w) * j.ratchet ∧
    (0 < (jp.applyImpulse h dt).2.getImpulse → ((jp.applyImpulse h dt).1 j.b).w - ((jp.applyImpulse h dt).1 j.a).w = -jp.bias) := by
  have his : jp.iSum = 1 / ((h0 j.a).i_inv + (h0 j.b).i_inv) := by subst hjp; rfl
  have ha : jp.a = j.a := by subst hjp; rfl
  have hb : jp.b = j.b := by subst hjp; rfl
  have hmf : jp.maxForce = j.maxForce := by subst hjp; rfl
  have hra : jp.ratchet = j.ratchet := by subst hjp; rfl
  simp only [RatchetJoint.applyImpulse, RatchetJoint.getImpulse, fabs_real, hmf, if_neg hne, hra] at hlim ⊢
  rw [abs_div, div_lt_iff₀ (abs_pos.2 hr)] at hlim
  obtain ⟨h1, h2⟩ := clamp_pos _ _ hlim
  have hd : ∀ y : ℝ, y / j.ratchet * j.ratchet = y := fun y => div_mul_cancel₀ y hr
  rw [ha, hb] at h1 h2 ⊢
  rw [(spin_apply h j.a j.b hab _ _).1, (spin_apply h j.a j.b hab _ _).2, hi.ia, hi.ib]
  have hsol := solve_div (-(jp.bias + ((h j.b).w - (h j.a).w))) _ hk.ne'
  rw [← his] at hsol
  generalize clamp ((jp.jAcc + -(jp.bias + ((h j.b).w - (h j.a).w)) * jp.iSum) * j.ratchet) 0 (j.maxForce * dt * |j.ratchet|) = c at *
  constructor
  · have hc := hd c
    generalize c / j.ratchet = y at *
    subst hc
    have h3 := mul_le_mul_of_nonneg_right h1 hk.le
    have h4 : -(jp.bias + ((h j.b).w - (h j.a).w)) * jp.iSum * ((h0 j.a).i_inv + (h0 j.b).i_inv) * j.ratchet =
      -(jp.bias + ((h j.b).w - (h j.a).w)) * j.ratchet := by rw [hsol]
    linarith
  · intro hp
    have hc0 : 0 < |c| := by
      rw [abs_div] at hp
      by_contra hz
      have : |c| = 0 := le_antisymm (not_lt.1 hz) (abs_nonneg _)
      rw [this, zero_div] at hp
      exact lt_irrefl _ hp
    have e := h2 hc0
    have hy : c / j.ratchet = jp.jAcc + -(jp.bias + ((h j.b).w - (h j.a).w)) * jp.iSum := by rw [e, mul_div_cancel_right₀ _ hr]
    rw [hy]
    linear_combination hsol

end CP
