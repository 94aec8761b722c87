import Verif.Props.Correct

/-! # C57: concrete cases -/

namespace CP
open GoFloat
/-! ### A wheel geared to a fixed axle -/

/-- A wheel (body 1) of moment of inertia 1, or a body with infinite moment of inertia, with angle `a` and angular velocity `w`. -/
noncomputable def gearWheel (iinv a w : ℝ) : Body ℝ :=
  Body.setTransform {
             m := 1, m_inv := 1, i := 1, i_inv := iinv, cog := ⟨0, 0⟩, p := ⟨0, 0⟩, v := ⟨0, 0⟩, f := ⟨0, 0⟩, a := a, w := w, t := 0
             transform := ⟨1, 0, 0, 1, 0, 0⟩, v_bias := ⟨0, 0⟩, w_bias := 0, shapes := [], idle := 0 } ⟨0, 0⟩ a

/-- A gear that wants the wheel at angle 0 and corrects half of the error per second. -/
noncomputable def gearDemo (acc isum bias : ℝ) : GearJoint ℝ :=
  { a := 0, b := 1, maxForce := 100, errorBias := 1 / 2, maxBias := 10, phase := 0, ratio := 1, ratio_inv := 1, iSum := isum, bias := bias, jAcc := acc }

/-- The wheel and the gear. -/
noncomputable def gearMotion (a w acc isum bias : ℝ) : Motion ℝ :=
  { bodies := fun k => if k = 1 then gearWheel 1 a w else gearWheel 0 0 0, joints := fun _ => .gear (gearDemo acc isum bias), currDt := 1 }

/-- One second. -/
noncomputable def gearTick : Tick ℝ where
  dt := 1
  gravity := ⟨0, 0⟩
  damping := 1
  iterations := 1
  slop := 1 / 10
  collisionBias := 0
  movers := [1]
  dyn := [1]
  arbs := []
  contact := fun _ => { e := 1, u := 1, surface_vr := ⟨0, 0⟩, a := 7, b := 8, n := ⟨1, 0⟩, first := false, contacts := [] }
  joints := [0]

theorem clamp_id (x M : ℝ) (h : |x| ≤ M) : clamp x (-M) M = x := by
  obtain ⟨h1, h2⟩ := abs_le.1 h
  rw [clamp_eq_real _ _ _ (by linarith), min_eq_left h2, max_eq_right h1]


theorem gearSpin (a w : ℝ) (da db : Body ℝ → ℝ) (hda : da (gearWheel 0 0 0) = 0) :
    applySpin (gearMotion a w 0 0 0).bodies 0 1 da db = (gearMotion a (w + db (gearWheel 1 a w)) 0 0 0).bodies := by
  have h0 : ({ gearWheel 0 0 0 with w := (gearWheel 0 0 0).w - da (gearWheel 0 0 0) } : Body ℝ) = gearWheel 0 0 0 := by
    rw [hda]; simp [gearWheel, Body.setTransform]
  funext k
  simp only [applySpin, gearMotion, Bodies.set]
  by_cases h : k = 1
  · simp [h, gearWheel, Body.setTransform]
  · by_cases h2 : k = 0
    · simp only [h2]; simpa using h0
    · simp [h, h2]

theorem gearIntegrate (a w : ℝ) : (gearMotion a w 0 0 0).bodies.set 1 (((gearMotion a w 0 0 0).bodies 1).updateVelocity ⟨0, 0⟩ 1 1) =
    (gearMotion a w 0 0 0).bodies := by
  funext k
  simp only [gearMotion, Bodies.set]
  by_cases h : k = 1
  · have : (gearWheel 1 a w).type = .dynamic := by
      have n1 : ¬ (gearWheel 1 a w).idle = maxFloat := maxFloat_pos.ne
      have n2 : ¬ (gearWheel 1 a w).m = maxFloat := one_lt_maxFloat.ne
      rw [Body.type, if_neg n1, if_neg n2]
    simp [h, Body.updateVelocity, this]
    simp [gearWheel, Body.setTransform, Vec.add, Vec.mult, Body.zeroV]
  · simp [h]

theorem gearMove (a w : ℝ) : Motion.move (gearMotion a w 0 0 0).bodies 1 [1] = (gearMotion (a + w) w 0 0 0).bodies := by
  funext k
  simp only [gearMotion, Motion.move, List.foldl, Bodies.set]
  by_cases h : k = 1
  · simp [h, Body.updatePosition, gearWheel, Body.setTransform, Vec.add, Vec.mult, Body.zeroV]
  · simp [h]

theorem gearTick_eq (a w acc isum bias : ℝ) (h1 : |a + w| ≤ 2) (h2 : |w| ≤ 2) (m : Motion ℝ)
    (hm : m.bodies = (gearMotion a w 0 0 0).bodies) (hj : m.joints 0 = .gear (gearDemo acc isum bias)) (hc : m.currDt = 1) :
    (m.tick gearTick).bodies = (gearMotion (a + w) (-(a + w) / 2) 0 0 0).bodies ∧
      (m.tick gearTick).joints 0 = .gear (gearDemo (-(a + w) / 2 - w) 1 (-(a + w) / 2)) ∧ (m.tick gearTick).currDt = 1 := by
  obtain ⟨l1, u1⟩ := abs_le.1 h1
  obtain ⟨l2, u2⟩ := abs_le.1 h2
  have c1 : clamp (-(1 - (1/2 : ℝ)) * ((a + w) * 1 - 0 - 0) / 1) (-10) 10 = -(a + w) / 2 := by
    rw [clamp_id _ _ (by rw [abs_le]; constructor <;> linarith)]; ring
  have c2 : clamp (acc + (-(a + w) / 2 - (w + acc))) (-100) 100 = -(a + w) / 2 - w := by
    rw [clamp_id _ _ (by rw [abs_le]; constructor <;> linarith)]; ring
  have p1 : Joint.preStep (gearMotion (a + w) w 0 0 0).bodies (.gear (gearDemo acc isum bias)) 1 =
      ((gearMotion (a + w) w 0 0 0).bodies, .gear (gearDemo acc 1 (-(a + w) / 2))) := by
    rw [← c1]
    simp [Joint.preStep, GearJoint.preStep, gearDemo, gearMotion, gearWheel, Body.setTransform, biasCoef, pow_real]
  have p2 : Joint.applyCached (gearMotion (a + w) w 0 0 0).bodies (.gear (gearDemo acc 1 (-(a + w) / 2))) 1 =
      ((gearMotion (a + w) (w + acc) 0 0 0).bodies, .gear (gearDemo acc 1 (-(a + w) / 2))) := by
    simp only [Joint.applyCached, GearJoint.applyCached, Prod.map, id]
    rw [show (gearDemo acc 1 (-(a + w) / 2)).a = 0 from rfl, show (gearDemo acc 1 (-(a + w) / 2)).b = 1 from rfl, gearSpin _ _ _ _ (by simp [gearWheel, Body.setTransform])]
    simp [gearWheel, Body.setTransform, gearDemo]
  have p3 : Joint.applyImpulse (gearMotion (a + w) (w + acc) 0 0 0).bodies (.gear (gearDemo acc 1 (-(a + w) / 2))) 1 =
      ((gearMotion (a + w) (-(a + w) / 2) 0 0 0).bodies, .gear (gearDemo (-(a + w) / 2 - w) 1 (-(a + w) / 2))) := by
    have e : ((gearMotion (a + w) (w + acc) 0 0 0).bodies 1).w = w + acc ∧ ((gearMotion (a + w) (w + acc) 0 0 0).bodies 0).w = 0 := ⟨rfl, rfl⟩
    simp only [Joint.applyImpulse, GearJoint.applyImpulse, Prod.map, id]
    rw [show (gearDemo acc 1 (-(a + w) / 2)).a = 0 from rfl, show (gearDemo acc 1 (-(a + w) / 2)).b = 1 from rfl, gearSpin _ _ _ _ (by simp [gearWheel, Body.setTransform])]
    rw [e.1, e.2]
    have e2 : (gearWheel 1 (a + w) (w + acc)).i_inv = 1 := rfl
    rw [e2]
    simp only [gearDemo, mul_one, sub_zero, c2]
    congr 2
    ring_nf
  obtain ⟨b, j, c⟩ := m
  subst hm hc
  simp only at hj
  have run : Solver.run { bodies := (gearMotion (a + w) w 0 0 0).bodies, joints := j, arbs := gearTick.contact }
      [.jointPreStep 0 1, .integrate 1 ⟨0, 0⟩ 1 1, .jointCached 0 1, .jointApply 0 1] =
      { bodies := (gearMotion (a + w) (-(a + w) / 2) 0 0 0).bodies, joints := fun i => if i = 0 then .gear (gearDemo (-(a + w) / 2 - w) 1 (-(a + w) / 2)) else j i, arbs := gearTick.contact } := by
    simp only [Solver.run, List.foldl, Solver.step, Solver.setJoint, hj, p1, gearIntegrate, if_true, p2, p3]
    congr 1
    funext i
    by_cases h : i = 0 <;> simp [h]
  have hp : Solver.stepProgram gearTick.arbs gearTick.joints gearTick.dyn gearTick.iterations gearTick.dt 1 gearTick.slop gearTick.collisionBias gearTick.damping
      gearTick.gravity = [.jointPreStep 0 1, .integrate 1 ⟨0, 0⟩ 1 1, .jointCached 0 1, .jointApply 0 1] := by
    simp [Solver.stepProgram, gearTick, pow_real]
  have ht : Motion.tick ⟨(gearMotion a w 0 0 0).bodies, j, 1⟩ gearTick = ⟨(gearMotion (a + w) (-(a + w) / 2) 0 0 0).bodies,
      fun i => if i = 0 then .gear (gearDemo (-(a + w) / 2 - w) 1 (-(a + w) / 2)) else j i, 1⟩ := by
    rw [Motion.tick, if_neg (by simp [gearTick])]
    simp only [hp]
    have : Motion.move (gearMotion a w 0 0 0).bodies gearTick.dt gearTick.movers = (gearMotion (a + w) w 0 0 0).bodies := gearMove a w
    rw [this, run]
    rfl
  rw [ht]
  exact ⟨rfl, rfl, rfl⟩

/-- Every second the wheel, first at angle 1 and at rest. -/
noncomputable def gearStates : Nat → Motion ℝ
  | 0 => gearMotion 1 0 0 0 0
  | n + 1 => (gearStates n).tick gearTick

theorem gearStates_eq (n : Nat) : ∃ a w acc isum bias, |a + w| ≤ 1 ∧ |w| ≤ 1 ∧ |acc| ≤ 2 ∧ (gearStates n).bodies = (gearMotion a w 0 0 0).bodies ∧
    (gearStates n).joints 0 = .gear (gearDemo acc isum bias) ∧ (gearStates n).currDt = 1 := by
  induction n with
  | zero => exact ⟨1, 0, 0, 0, 0, by norm_num, by norm_num, by norm_num, rfl, rfl, rfl⟩
  | succ n ih =>
    obtain ⟨a, w, acc, isum, bias, h1, h2, -, e1, e2, e3⟩ := ih
    obtain ⟨f1, f2, f3⟩ := gearTick_eq a w acc isum bias (by linarith) (by linarith) _ e1 e2 e3
    refine ⟨_, _, _, _, _, ?_, ?_, ?_, f1, f2, f3⟩ <;> rw [abs_le] at * <;> constructor <;> linarith [h1.1, h1.2, h2.1, h2.2]

/-- The run is undisturbed. -/
theorem gearStates_undisturbed : Undisturbed gearStates (fun _ => gearTick) 1 0 0 1 := by
  refine ⟨fun _ => rfl, fun _ => rfl, fun n => ⟨by simp [gearTick], [], [], rfl, by simp, by simp, by simp⟩, ?_, by simp [Tick.Untouched, gearTick], fun n => ?_⟩
  · intro n x hx
    obtain ⟨a, w, acc, isum, bias, h1, h2, -, e1, e2, e3⟩ := gearStates_eq n
    rw [e1]
    refine ⟨by simp [gearTick], ?_⟩
    rcases hx with rfl | rfl
    · exact .inr ⟨rfl, rfl, rfl, rfl⟩
    · exact .inl (by simp [gearTick])
  · obtain ⟨a, w, acc, isum, bias, h1, h2, -, e1, e2, e3⟩ := gearStates_eq n
    obtain ⟨a', w', acc', isum', bias', -, -, h', -, e', -⟩ := gearStates_eq (n + 1)
    rw [e', e2]
    simp only [Joint.getImpulse, GearJoint.getImpulse, gearDemo, fabs_real, Joint.con]
    linarith

/-- The hypotheses of `C57_gear_steps` are met: the error, at first 1, halves every second. -/
example (n : Nat) : gearError ((gearStates n).seen gearTick) (gearDemo 0 0 0) = (1 / 2) ^ n := by
  rw [C57_gear_steps gearStates (fun _ => gearTick) 1 0 (gearDemo 0 0 0) rfl (by simp [gearDemo]) one_pos (by simp [gearDemo]) (by simp [gearDemo])
    (by simp [gearDemo, gearStates, gearMotion, gearWheel, Body.setTransform]) (by simp [gearDemo]) gearStates_undisturbed n]
  have h0 : gearError ((gearStates 0).seen gearTick) (gearDemo 0 0 0) = 1 := by
    have : (gearStates 0).seen gearTick = (gearMotion (1 + 0) 0 0 0 0).bodies := gearMove 1 0
    rw [this]
    simp [gearError, gearDemo, gearMotion, gearWheel, Body.setTransform]
  rw [h0]
  have hs : (gearDemo 0 0 0).errorBias ^ (1:ℝ) = 1 / 2 ∧ (gearDemo 0 0 0).maxBias * 1 = 10 := by simp [gearDemo]
  rw [hs.1, hs.2]
  induction n with
  | zero => simp
  | succ n ih =>
    rw [Function.iterate_succ_apply', ih, C57_leftover_free, pow_succ']
    rw [abs_of_nonneg (by positivity)]
    have : ((1:ℝ) / 2) ^ n ≤ 1 := pow_le_one₀ (by norm_num) (by norm_num)
    linarith

/-! ### The other joints, one step -/

/-- The step `gearTick`, action by action. -/
theorem gearTick_one {m : Motion ℝ} (hc : m.currDt = 1) {h1 h1' h2 h3 : Bodies ℝ} {j1 j2 j3 : Joint ℝ}
    (p1 : (m.joints 0).preStep (m.seen gearTick) 1 = (h1, j1)) (pi : h1.set 1 ((h1 1).updateVelocity ⟨0, 0⟩ 1 1) = h1')
    (p2 : j1.applyCached h1' 1 = (h2, j2)) (p3 : j2.applyImpulse h2 1 = (h3, j3)) :
    (m.tick gearTick).bodies = h3 ∧ (m.tick gearTick).joints 0 = j3 := by
  have hp : Solver.stepProgram gearTick.arbs gearTick.joints gearTick.dyn gearTick.iterations gearTick.dt 1 gearTick.slop gearTick.collisionBias gearTick.damping
      gearTick.gravity = [.jointPreStep 0 1, .integrate 1 ⟨0, 0⟩ 1 1, .jointCached 0 1, .jointApply 0 1] := by
    simp [Solver.stepProgram, gearTick, pow_real]
  have hs : Motion.move m.bodies gearTick.dt gearTick.movers = m.seen gearTick := rfl
  rw [Motion.tick, if_neg (by simp [gearTick]), hc]
  simp only [hp, hs, Solver.run, List.foldl, Solver.step, Solver.setJoint, p1, pi, if_true, p2, p3]
  exact ⟨trivial, trivial⟩

theorem gearLast (m : Motion ℝ) : gearTick.LastWord m 0 := ⟨by simp [gearTick], [], [], rfl, by simp, by simp, by simp⟩

theorem gearCarries (h : Bodies ℝ) (h0 : h 0 = gearWheel 0 0 0) (x : Nat) (hx : x = 0 ∨ x = 1) : gearTick.Carries h x := by
  refine ⟨by simp [gearTick], ?_⟩
  rcases hx with rfl | rfl
  · exact .inr (by rw [h0]; exact ⟨rfl, rfl, rfl, rfl⟩)
  · exact .inl (by simp [gearTick])

/-- The wheel at angle `a` with angular velocity `w`, with another joint. -/
noncomputable def wheelMotion (a w : ℝ) (j : Joint ℝ) : Motion ℝ :=
  { bodies := (gearMotion a w 0 0 0).bodies, joints := fun _ => j, currDt := 1 }

theorem wheelSeen (a w : ℝ) (j : Joint ℝ) : (wheelMotion a w j).seen gearTick = (gearMotion (a + w) w 0 0 0).bodies := gearMove a w

/-- A motor of rate 2. -/
noncomputable def motorDemo (acc isum : ℝ) : SimpleMotor ℝ :=
  { a := 0, b := 1, maxForce := 100, errorBias := 1 / 2, maxBias := 10, rate := 2, iSum := isum, jAcc := acc }

/-- The hypotheses of `C57_motor` are met: a motor turns the wheel from angle 4 (where the step takes it) to angle 2. -/
example : relAngle (((wheelMotion 3 1 (.motor (motorDemo 0 0))).tick gearTick).seen gearTick) 0 1 = 2 := by
  have q1 : Joint.preStep ((wheelMotion 3 1 (.motor (motorDemo 0 0))).seen gearTick) (.motor (motorDemo 0 0)) 1 =
      ((gearMotion (3 + 1) 1 0 0 0).bodies, .motor (motorDemo 0 1)) := by
    rw [wheelSeen]
    simp [Joint.preStep, SimpleMotor.preStep, motorDemo, gearMotion, gearWheel, Body.setTransform]
  have q2 : Joint.applyCached (gearMotion (3 + 1) 1 0 0 0).bodies (.motor (motorDemo 0 1)) 1 = ((gearMotion (3 + 1) 1 0 0 0).bodies, .motor (motorDemo 0 1)) := by
    simp only [Joint.applyCached, SimpleMotor.applyCached, Prod.map, id]
    rw [show (motorDemo 0 1).a = 0 from rfl, show (motorDemo 0 1).b = 1 from rfl, gearSpin _ _ _ _ (by simp [gearWheel, Body.setTransform])]
    simp [motorDemo]
  have q3 : ∃ h3, Joint.applyImpulse (gearMotion (3 + 1) 1 0 0 0).bodies (.motor (motorDemo 0 1)) 1 = (h3, .motor (motorDemo (-3) 1)) ∧ h3 0 = gearWheel 0 0 0 := by
    have c : clamp (-3 : ℝ) (-100) 100 = -3 := clamp_id _ _ (by norm_num)
    have e : ((gearMotion (3 + 1) 1 0 0 0).bodies 1).w = 1 ∧ ((gearMotion (3 + 1) 1 0 0 0).bodies 0).w = 0 := ⟨rfl, rfl⟩
    have c' : clamp ((0:ℝ) + -(1 - 0 + 2) * 1) (-(100 * 1)) (100 * 1) = -3 := by norm_num [c]
    simp only [Joint.applyImpulse, SimpleMotor.applyImpulse, Prod.map, id]
    rw [show (motorDemo 0 1).a = 0 from rfl, show (motorDemo 0 1).b = 1 from rfl, gearSpin _ _ _ _ (by simp [gearWheel, Body.setTransform]), e.1, e.2]
    refine ⟨_, Prod.ext rfl ?_, rfl⟩
    simp only [motorDemo, c']
  obtain ⟨h3, q3, hz⟩ := q3
  obtain ⟨t1, t2⟩ := gearTick_one (m := wheelMotion 3 1 (.motor (motorDemo 0 0))) rfl q1 (gearIntegrate _ _) q2 q3
  have := C57_motor (wheelMotion 3 1 (.motor (motorDemo 0 0))) gearTick gearTick 0 (motorDemo 0 0) rfl (by simp [motorDemo]) one_pos rfl (gearLast _)
    (by simp [wheelMotion, motorDemo, gearMotion, gearWheel, Body.setTransform]) (gearCarries _ (by rw [t1, hz]) _ (.inl rfl)) (gearCarries _ (by rw [t1, hz]) _ (.inr rfl))
    (by rw [t2]; simp [Joint.getImpulse, SimpleMotor.getImpulse, motorDemo, gearTick, fabs_real]; norm_num)
  have hb : ∀ x, x = 0 ∨ x = 1 → (((wheelMotion 3 1 (.motor (motorDemo 0 0))).tick gearTick).bodies x).w_bias = 0 := fun x hx =>
    (untouched_bias _ _ x (by simp [gearTick]) (by simp [Tick.Untouched, gearTick]) (gearCarries _ rfl _ hx)).2
  have e : relAngle ((wheelMotion 3 1 (.motor (motorDemo 0 0))).seen gearTick) 0 1 = 4 := by
    rw [wheelSeen]; simp [relAngle, gearMotion, gearWheel, Body.setTransform]; norm_num
  have this' : relAngle (((wheelMotion 3 1 (.motor (motorDemo 0 0))).tick gearTick).seen gearTick) 0 1 = 4 - 2 * 1 +
      biasTurn ((wheelMotion 3 1 (.motor (motorDemo 0 0))).tick gearTick).bodies 0 1 1 1 := by rw [← e]; exact this
  rw [this']
  simp only [biasTurn, hb 0 (.inl rfl), hb 1 (.inr rfl)]
  norm_num

/-- A rotary limit of 0 to 1. -/
noncomputable def limitDemo (acc isum bias : ℝ) : RotaryLimitJoint ℝ :=
  { a := 0, b := 1, maxForce := 100, errorBias := 1 / 2, maxBias := 10, min := 0, max := 1, iSum := isum, bias := bias, jAcc := acc }

/-- The hypotheses of `C57_limit` are met: a wheel 2 beyond the limit is brought back half the way. -/
example : relAngle (((wheelMotion 3 0 (.rotaryLimit (limitDemo 0 0 0))).tick gearTick).seen gearTick) 0 1 = 2 := by
  have c1 : clamp (-(1 - (1 / 2 : ℝ)) * (1 - 3) / 1) (-10) 10 = 1 := by rw [clamp_id _ _ (by norm_num)]; norm_num
  have q1 : Joint.preStep ((wheelMotion 3 0 (.rotaryLimit (limitDemo 0 0 0))).seen gearTick) (.rotaryLimit (limitDemo 0 0 0)) 1 =
      ((gearMotion (3 + 0) 0 0 0 0).bodies, .rotaryLimit (limitDemo 0 1 1)) := by
    rw [wheelSeen]
    have e : ((gearMotion (3 + 0) 0 0 0 0).bodies 1).a = 3 ∧ ((gearMotion (3 + 0) 0 0 0 0).bodies 0).a = 0 ∧
      ((gearMotion (3 + 0) 0 0 0 0).bodies 1).i_inv = 1 ∧ ((gearMotion (3 + 0) 0 0 0 0).bodies 0).i_inv = 0 := ⟨add_zero 3, rfl, rfl, rfl⟩
    simp only [Joint.preStep, RotaryLimitJoint.preStep, Prod.map, id, limitDemo, e, biasCoef, pow_real, Real.rpow_one, sub_zero,
      if_pos (show (1:ℝ) < 3 by norm_num), c1, if_neg (one_ne_zero (α := ℝ))]
    norm_num
  have q2 : Joint.applyCached (gearMotion (3 + 0) 0 0 0 0).bodies (.rotaryLimit (limitDemo 0 1 1)) 1 =
      ((gearMotion (3 + 0) 0 0 0 0).bodies, .rotaryLimit (limitDemo 0 1 1)) := by
    simp only [Joint.applyCached, RotaryLimitJoint.applyCached, Prod.map, id]
    rw [show (limitDemo 0 1 1).a = 0 from rfl, show (limitDemo 0 1 1).b = 1 from rfl, gearSpin _ _ _ _ (by simp [gearWheel, Body.setTransform])]
    simp [limitDemo]
  have q3 : ∃ h3, Joint.applyImpulse (gearMotion (3 + 0) 0 0 0 0).bodies (.rotaryLimit (limitDemo 0 1 1)) 1 =
      (h3, .rotaryLimit (limitDemo (-1) 1 1)) ∧ h3 0 = gearWheel 0 0 0 := by
    have c' : clamp ((0:ℝ) + -(1 + (0 - 0)) * 1) (-(100 * 1)) 0 = -1 := by
      rw [clamp_eq_real _ _ _ (by norm_num)]; norm_num
    have e : ((gearMotion (3 + 0) 0 0 0 0).bodies 1).w = 0 ∧ ((gearMotion (3 + 0) 0 0 0 0).bodies 0).w = 0 := ⟨rfl, rfl⟩
    have hb : (limitDemo 0 1 1).bias = 1 := rfl
    simp only [Joint.applyImpulse, RotaryLimitJoint.applyImpulse, Prod.map, id]
    rw [if_neg (by rw [hb]; exact one_ne_zero), show (limitDemo 0 1 1).a = 0 from rfl, show (limitDemo 0 1 1).b = 1 from rfl,
      gearSpin _ _ _ _ (by simp [gearWheel, Body.setTransform]), e.1, e.2]
    refine ⟨_, Prod.ext rfl ?_, rfl⟩
    rw [if_neg (by rw [hb]; norm_num)]
    simp only [limitDemo, c']
  obtain ⟨h3, q3, hz⟩ := q3
  obtain ⟨t1, t2⟩ := gearTick_one (m := wheelMotion 3 0 (.rotaryLimit (limitDemo 0 0 0))) rfl q1 (gearIntegrate _ _) q2 q3
  have ix : ((wheelMotion 3 0 (.rotaryLimit (limitDemo 0 0 0))).bodies 0).i_inv + ((wheelMotion 3 0 (.rotaryLimit (limitDemo 0 0 0))).bodies 1).i_inv = 1 :=
    zero_add (1:ℝ)
  have rp : (limitDemo 0 0 0).errorBias ^ gearTick.dt = 1 / 2 := Real.rpow_one _
  have := (C57_limit (wheelMotion 3 0 (.rotaryLimit (limitDemo 0 0 0))) gearTick gearTick 0 (limitDemo 0 0 0) rfl (by simp [limitDemo]) one_pos rfl (gearLast _)
    (by rw [show (limitDemo 0 0 0).a = 0 from rfl, show (limitDemo 0 0 0).b = 1 from rfl, ix]; exact one_pos) (by simp [limitDemo]) (by rw [rp]; norm_num) (by simp [limitDemo])
    (gearCarries _ (by rw [t1, hz]) _ (.inl rfl)) (gearCarries _ (by rw [t1, hz]) _ (.inr rfl))
    (by rw [t2]; simp [Joint.getImpulse, RotaryLimitJoint.getImpulse, limitDemo, gearTick, fabs_real])).1
  have hb : ∀ x, x = 0 ∨ x = 1 → (((wheelMotion 3 0 (.rotaryLimit (limitDemo 0 0 0))).tick gearTick).bodies x).w_bias = 0 := fun x hx =>
    (untouched_bias _ _ x (by simp [gearTick]) (by simp [Tick.Untouched, gearTick]) (gearCarries _ rfl _ hx)).2
  have e : relAngle ((wheelMotion 3 0 (.rotaryLimit (limitDemo 0 0 0))).seen gearTick) 0 1 = 3 := by
    rw [wheelSeen]; simp [relAngle, gearMotion, gearWheel, Body.setTransform]
  rw [show (limitDemo 0 0 0).a = 0 from rfl, show (limitDemo 0 0 0).b = 1 from rfl, show (limitDemo 0 0 0).max = 1 from rfl, e, rp] at this
  have t3 := (this (by norm_num)).2 (by rw [t2]; simp [Joint.getImpulse, RotaryLimitJoint.getImpulse, limitDemo, fabs_real])
  simp only [biasTurn, hb 0 (.inl rfl), hb 1 (.inr rfl)] at t3
  rw [C57_leftover_free _ _ _ (by simp [limitDemo, gearTick]; norm_num)] at t3
  linarith

/-- A body of mass 1 that cannot turn (or, with `minv = 0`, a fixed one) at `(x, 0)` with velocity `(v, 0)`. -/
noncomputable def sled (minv x v : ℝ) : Body ℝ :=
  Body.setTransform {
             m := 1, m_inv := minv, i := 1, i_inv := 0, cog := ⟨0, 0⟩, p := ⟨x, 0⟩, v := ⟨v, 0⟩, f := ⟨0, 0⟩, a := 0, w := 0, t := 0
             transform := ⟨1, 0, 0, 1, 0, 0⟩, v_bias := ⟨0, 0⟩, w_bias := 0, shapes := [], idle := 0 } ⟨x, 0⟩ 0

/-- The sled and a fixed body at the origin. -/
noncomputable def sledBodies (x v : ℝ) : Bodies ℝ := fun k => if k = 1 then sled 1 x v else sled 0 0 0

/-- The sled with a joint. -/
noncomputable def sledMotion (x v : ℝ) (j : Joint ℝ) : Motion ℝ := { bodies := sledBodies x v, joints := fun _ => j, currDt := 1 }

theorem sledSeen (x v : ℝ) (j : Joint ℝ) : (sledMotion x v j).seen gearTick = sledBodies (x + v) v := by
  funext k
  simp only [Motion.seen, sledMotion, gearTick, Motion.move, List.foldl, Bodies.set, sledBodies]
  by_cases h : k = 1
  · simp [h, Body.updatePosition, sled, Body.setTransform, Vec.add, Vec.mult, Body.zeroV]
  · simp [h]

theorem sledIntegrate (x v : ℝ) : (sledBodies x v).set 1 ((sledBodies x v 1).updateVelocity ⟨0, 0⟩ 1 1) = sledBodies x v := by
  funext k
  simp only [sledBodies, Bodies.set]
  by_cases h : k = 1
  · have : (sled 1 x v).type = .dynamic := by
      have n1 : ¬ (sled 1 x v).idle = maxFloat := maxFloat_pos.ne
      have n2 : ¬ (sled 1 x v).m = maxFloat := one_lt_maxFloat.ne
      rw [Body.type, if_neg n1, if_neg n2]
    simp [h, Body.updateVelocity, this]
    simp [sled, Body.setTransform, Vec.add, Vec.mult, Body.zeroV]
  · simp [h]

theorem sledPush (x v jx : ℝ) (r1 r2 : Vec ℝ) : applyImpulses (sledBodies x v) 0 1 r1 r2 ⟨jx, 0⟩ = sledBodies x (v + jx) := by
  funext k
  simp only [applyImpulses, sledBodies, Bodies.set]
  by_cases h : k = 1
  · simp [h, sled, Body.setTransform]
  · by_cases h2 : k = 0
    · simp [h2, sled, Body.setTransform]
    · simp [h, h2]

theorem sledOffset (x v : ℝ) (k : Nat) : anchorOffset (sledBodies x v k) ⟨0, 0⟩ = ⟨0, 0⟩ := by
  by_cases h : k = 1 <;> simp [sledBodies, h, anchorOffset, sled, Body.setTransform, Transform.vect, Vec.sub]

theorem sledUpToDate (x v : ℝ) (k : Nat) : UpToDate (sledBodies x v) k := by
  by_cases h : k = 1 <;> simp [sledBodies, h, UpToDate, sled, Body.setTransform]

theorem sledCarries (h : Bodies ℝ) (h0 : h 0 = sled 0 0 0) (x : Nat) (hx : x = 0 ∨ x = 1) : gearTick.Carries h x := by
  refine ⟨by simp [gearTick], ?_⟩
  rcases hx with rfl | rfl
  · exact .inr (by rw [h0]; exact ⟨rfl, rfl, rfl, rfl⟩)
  · exact .inl (by simp [gearTick])

theorem sledSolvable (x v : ℝ) : Solvable (sledBodies x v) 0 1 :=
  ⟨by show (0:ℝ) < 0 + 1; norm_num, le_refl (0:ℝ), le_refl (0:ℝ)⟩

theorem sledGrip (x v : ℝ) (k : Nat) : grip (sledBodies x v) k ⟨0, 0⟩ = (sledBodies x v k).p := by
  have : (sledBodies x v k).Wf := by
    have := seen_wf (m := sledMotion x v (.motor (motorDemo 0 0))) (t := { gearTick with movers := [] }) (x := k) (by simp) (sledUpToDate x v k)
    exact this
  rw [grip_eq this, sledOffset]
  ext <;> simp [Vec.add]

/-- A pivot between the centres of the two. -/
noncomputable def pivotDemo (K : Mat2 ℝ) (acc bias : Vec ℝ) : PivotJoint ℝ :=
  { a := 0, b := 1, maxForce := 100, errorBias := 1 / 2, maxBias := 10, anchorA := ⟨0, 0⟩, anchorB := ⟨0, 0⟩, r1 := ⟨0, 0⟩, r2 := ⟨0, 0⟩, k := K, jAcc := acc, bias := bias }

theorem clampLen_id (v : Vec ℝ) (l : ℝ) (h : v.length ≤ l) (h0 : 0 ≤ l) : v.clampLen l = v := (C41_clampLen v l h0).2.1 h

theorem length_flat (x : ℝ) : (⟨x, 0⟩ : Vec ℝ).length = |x| := by
  rw [Vec.length, sqrt_real]
  simp only [Vec.dot, mul_zero, add_zero]
  exact Real.sqrt_mul_self_eq_abs x

/-- The hypotheses of `C57_pivot` are met: the pivot takes a sled 4 away half the way back. -/
example : let m := sledMotion 4 0 (.pivot (pivotDemo ⟨0, 0, 0, 0⟩ ⟨0, 0⟩ ⟨0, 0⟩))
    gripGap ((m.tick gearTick).seen gearTick) 0 1 ⟨0, 0⟩ ⟨0, 0⟩ = ⟨2, 0⟩ := by
  intro m
  have q1 : Joint.preStep (m.seen gearTick) (.pivot (pivotDemo ⟨0, 0, 0, 0⟩ ⟨0, 0⟩ ⟨0, 0⟩)) 1 =
      (sledBodies (4 + 0) 0, .pivot (pivotDemo ⟨1, 0, 0, 1⟩ ⟨0, 0⟩ ⟨-2, 0⟩)) := by
    rw [sledSeen]
    have c : (⟨-2, 0⟩ : Vec ℝ).clampLen 10 = ⟨-2, 0⟩ := clampLen_id _ _ (by rw [length_flat]; norm_num) (by norm_num)
    simp only [Joint.preStep, PivotJoint.preStep, Prod.map, id, pivotDemo, sledOffset]
    refine Prod.ext rfl ?_
    have e : (sledBodies (4 + 0) 0 1).p = ⟨4 + 0, 0⟩ ∧ (sledBodies (4 + 0) 0 0).p = ⟨0, 0⟩ := ⟨rfl, rfl⟩
    have c' : ((((sledBodies (4 + 0) 0 1).p.add ⟨0, 0⟩).sub ((sledBodies (4 + 0) 0 0).p.add ⟨0, 0⟩)).mult (-biasCoef (1 / 2) 1 / 1)) = ⟨-2, 0⟩ := by
      rw [e.1, e.2]
      simp only [biasCoef, pow_real, Real.rpow_one, Vec.add, Vec.sub, Vec.mult]
      ext <;> norm_num
    have hk : kTensor (sledBodies (4 + 0) 0) 0 1 ⟨0, 0⟩ ⟨0, 0⟩ = ⟨1, 0, 0, 1⟩ := by
      simp [kTensor, sledBodies, sled, Body.setTransform]
    rw [c', c, hk]
  have q2 : Joint.applyCached (sledBodies (4 + 0) 0) (.pivot (pivotDemo ⟨1, 0, 0, 1⟩ ⟨0, 0⟩ ⟨-2, 0⟩)) 1 =
      (sledBodies (4 + 0) 0, .pivot (pivotDemo ⟨1, 0, 0, 1⟩ ⟨0, 0⟩ ⟨-2, 0⟩)) := by
    have := sledPush (4 + 0) 0 0 ⟨0, 0⟩ ⟨0, 0⟩
    rw [add_zero (0:ℝ)] at this
    simp [Joint.applyCached, PivotJoint.applyCached, pivotDemo, Vec.mult] at this ⊢
    exact this
  have q3 : Joint.applyImpulse (sledBodies (4 + 0) 0) (.pivot (pivotDemo ⟨1, 0, 0, 1⟩ ⟨0, 0⟩ ⟨-2, 0⟩)) 1 =
      (sledBodies (4 + 0) (0 + -2), .pivot (pivotDemo ⟨1, 0, 0, 1⟩ ⟨-2, 0⟩ ⟨-2, 0⟩)) := by
    have hv : relVel (sledBodies (4 + 0) 0) 0 1 ⟨0, 0⟩ ⟨0, 0⟩ = ⟨0, 0⟩ := by
      simp [relVel, sledBodies, sled, Body.setTransform, Vec.add, Vec.sub, Vec.mult, Vec.perp]
    have c : (⟨-2, 0⟩ : Vec ℝ).clampLen (100 * 1) = ⟨-2, 0⟩ := clampLen_id _ _ (by rw [length_flat]; norm_num) (by norm_num)
    have c' : (Vec.add ⟨0, 0⟩ (Mat2.transform ⟨1, 0, 0, 1⟩ ⟨-2, 0⟩) : Vec ℝ) = ⟨-2, 0⟩ := by
      simp [Vec.add, Mat2.transform]
    have c2 : (Vec.sub ⟨-2, 0⟩ ⟨0, 0⟩ : Vec ℝ) = ⟨-2, 0⟩ := by simp [Vec.sub]
    simp only [Joint.applyImpulse, PivotJoint.applyImpulse, Prod.map, id, pivotDemo, hv, c2, c', c, sledPush]
  obtain ⟨t1, t2⟩ := gearTick_one (m := m) rfl q1 (sledIntegrate _ _) q2 q3
  have := C57_pivot m gearTick gearTick 0 (pivotDemo ⟨0, 0, 0, 0⟩ ⟨0, 0⟩ ⟨0, 0⟩) rfl (by simp [pivotDemo]) one_pos rfl (gearLast _) (sledSolvable _ _) (by simp [gearTick])
    (by simp [pivotDemo]) (by simp only [gearTick, Real.rpow_one, pivotDemo]; norm_num) (sledUpToDate _ _ _) (sledUpToDate _ _ _)
    (sledCarries _ (by rw [t1]; rfl) _ (.inl rfl)) (sledCarries _ (by rw [t1]; rfl) _ (.inr rfl))
    (by rw [t2]; simp only [Joint.getImpulse, PivotJoint.getImpulse, pivotDemo, length_flat, gearTick]; norm_num)
  have hs : swing (sledBodies (4 + 0) (0 + -2)) 0 ⟨0, 0⟩ 1 + swing (sledBodies (4 + 0) (0 + -2)) 1 ⟨0, 0⟩ 1 = 0 := by
    simp [swing, sledBodies, sled, Body.setTransform]
  have hp : ∀ k, biasMove (sledBodies (4 + 0) (0 + -2)) k ⟨0, 0⟩ 1 = ⟨0, 0⟩ := by
    intro k
    by_cases h : k = 1 <;> simp [biasMove, sledBodies, h, sled, Body.setTransform, Vec.add, Vec.mult]
  have he : gripGap (m.seen gearTick) 0 1 ⟨0, 0⟩ ⟨0, 0⟩ = ⟨4, 0⟩ := by
    rw [sledSeen, gripGap, sledGrip, sledGrip]
    simp [sledBodies, sled, Body.setTransform, Vec.sub]
  obtain ⟨s, -, -, s3, s4⟩ := this
  rw [t1] at s4
  have hr : (pivotDemo ⟨0, 0, 0, 0⟩ ⟨0, 0⟩ ⟨0, 0⟩).errorBias ^ gearTick.dt = 1 / 2 := Real.rpow_one _
  have s3' := s3 (by
    rw [hr]
    show (1 - 1 / 2 : ℝ) * (gripGap (m.seen gearTick) 0 1 ⟨0, 0⟩ ⟨0, 0⟩).length ≤ 10 * 1
    rw [he, length_flat]; norm_num)
  rw [hr] at s3'
  subst s3'
  have s5 : ((gripGap ((m.tick gearTick).seen gearTick) 0 1 ⟨0, 0⟩ ⟨0, 0⟩).sub
    (((gripGap (m.seen gearTick) 0 1 ⟨0, 0⟩ ⟨0, 0⟩).mult (1 / 2)).add ((biasMove (sledBodies (4 + 0) (0 + -2)) 1 ⟨0, 0⟩ 1).sub (biasMove (sledBodies (4 + 0) (0 + -2)) 0 ⟨0, 0⟩ 1)))).length ≤
      swing (sledBodies (4 + 0) (0 + -2)) 0 ⟨0, 0⟩ 1 + swing (sledBodies (4 + 0) (0 + -2)) 1 ⟨0, 0⟩ 1 := s4
  rw [hs, hp, hp, he] at s5
  generalize gripGap ((m.tick gearTick).seen gearTick) 0 1 ⟨0, 0⟩ ⟨0, 0⟩ = g at *
  have h0 : (g.sub (((⟨4, 0⟩ : Vec ℝ).mult (1 / 2)).add (Vec.sub ⟨0, 0⟩ ⟨0, 0⟩))).length = 0 := le_antisymm s5 (Vec.length_nonneg _)
  have h2 := (g.sub (((⟨4, 0⟩ : Vec ℝ).mult (1 / 2)).add (Vec.sub ⟨0, 0⟩ ⟨0, 0⟩))).length_sq
  rw [h0] at h2
  simp only [Vec.dot, Vec.sub, Vec.add, Vec.mult] at h2
  have hx : g.x - 2 = 0 := by nlinarith [sq_nonneg (g.x - 2), sq_nonneg g.y]
  have hy : g.y = 0 := by nlinarith [sq_nonneg (g.x - 2), sq_nonneg g.y]
  ext
  · show g.x = 2; linarith
  · exact hy

/-- A ratchet whose last notch is at 3. -/
noncomputable def ratchetDemo (acc isum bias : ℝ) : RatchetJoint ℝ :=
  { a := 0, b := 1, maxForce := 100, errorBias := 1 / 2, maxBias := 10, angle := 3, phase := 0, ratchet := 1, iSum := isum, bias := bias, jAcc := acc }

/-- The hypotheses of `C57_ratchet` are met: a wheel 2 behind the notch is brought back half the way. -/
example : relAngle (((wheelMotion 1 0 (.ratchet (ratchetDemo 0 0 0))).tick gearTick).seen gearTick) 0 1 = 2 := by
  have c1 : clamp (-(1 - (1 / 2 : ℝ)) * (3 - 1) / 1) (-10) 10 = -1 := by rw [clamp_id _ _ (by norm_num)]; norm_num
  have q1 : Joint.preStep ((wheelMotion 1 0 (.ratchet (ratchetDemo 0 0 0))).seen gearTick) (.ratchet (ratchetDemo 0 0 0)) 1 =
      ((gearMotion (1 + 0) 0 0 0 0).bodies, .ratchet (ratchetDemo 0 1 (-1))) := by
    rw [wheelSeen]
    have e : ((gearMotion (1 + 0) 0 0 0 0).bodies 1).a = 1 ∧ ((gearMotion (1 + 0) 0 0 0 0).bodies 0).a = 0 ∧
      ((gearMotion (1 + 0) 0 0 0 0).bodies 1).i_inv = 1 ∧ ((gearMotion (1 + 0) 0 0 0 0).bodies 0).i_inv = 0 := ⟨add_zero 1, rfl, rfl, rfl⟩
    simp only [Joint.preStep, RatchetJoint.preStep, Prod.map, id, ratchetDemo, e, biasCoef, pow_real, Real.rpow_one, sub_zero,
      if_pos (show (0:ℝ) < (3 - 1) * 1 by norm_num), c1, if_neg (show (-1 : ℝ) ≠ 0 by norm_num)]
    norm_num
  have q2 : Joint.applyCached (gearMotion (1 + 0) 0 0 0 0).bodies (.ratchet (ratchetDemo 0 1 (-1))) 1 =
      ((gearMotion (1 + 0) 0 0 0 0).bodies, .ratchet (ratchetDemo 0 1 (-1))) := by
    simp only [Joint.applyCached, RatchetJoint.applyCached, Prod.map, id]
    rw [show (ratchetDemo 0 1 (-1)).a = 0 from rfl, show (ratchetDemo 0 1 (-1)).b = 1 from rfl, gearSpin _ _ _ _ (by simp [gearWheel, Body.setTransform])]
    simp [ratchetDemo]
  have q3 : ∃ h3, Joint.applyImpulse (gearMotion (1 + 0) 0 0 0 0).bodies (.ratchet (ratchetDemo 0 1 (-1))) 1 =
      (h3, .ratchet (ratchetDemo 1 1 (-1))) ∧ h3 0 = gearWheel 0 0 0 := by
    have c' : clamp (((0:ℝ) + -(-1 + (0 - 0)) * 1) * 1) 0 (100 * 1 * |1|) / 1 = 1 := by
      rw [clamp_eq_real _ _ _ (by norm_num)]; norm_num
    have e : ((gearMotion (1 + 0) 0 0 0 0).bodies 1).w = 0 ∧ ((gearMotion (1 + 0) 0 0 0 0).bodies 0).w = 0 := ⟨rfl, rfl⟩
    have hb : (ratchetDemo 0 1 (-1)).bias = -1 := rfl
    simp only [Joint.applyImpulse, RatchetJoint.applyImpulse, Prod.map, id]
    rw [if_neg (by rw [hb]; norm_num), show (ratchetDemo 0 1 (-1)).a = 0 from rfl, show (ratchetDemo 0 1 (-1)).b = 1 from rfl,
      gearSpin _ _ _ _ (by simp [gearWheel, Body.setTransform]), e.1, e.2]
    refine ⟨_, Prod.ext rfl ?_, rfl⟩
    simp only [ratchetDemo, fabs_real, c']
  obtain ⟨h3, q3, hz⟩ := q3
  obtain ⟨t1, t2⟩ := gearTick_one (m := wheelMotion 1 0 (.ratchet (ratchetDemo 0 0 0))) rfl q1 (gearIntegrate _ _) q2 q3
  have ix : ((wheelMotion 1 0 (.ratchet (ratchetDemo 0 0 0))).bodies 0).i_inv + ((wheelMotion 1 0 (.ratchet (ratchetDemo 0 0 0))).bodies 1).i_inv = 1 :=
    zero_add (1:ℝ)
  have rp : (ratchetDemo 0 0 0).errorBias ^ gearTick.dt = 1 / 2 := Real.rpow_one _
  have := C57_ratchet (wheelMotion 1 0 (.ratchet (ratchetDemo 0 0 0))) gearTick gearTick 0 (ratchetDemo 0 0 0) rfl (by simp [ratchetDemo]) one_pos rfl (gearLast _)
    (by rw [show (ratchetDemo 0 0 0).a = 0 from rfl, show (ratchetDemo 0 0 0).b = 1 from rfl, ix]; exact one_pos) (by simp [ratchetDemo]) (by rw [rp]; norm_num)
    (gearCarries _ (by rw [t1, hz]) _ (.inl rfl)) (gearCarries _ (by rw [t1, hz]) _ (.inr rfl))
    (by rw [t2]; simp [Joint.getImpulse, RatchetJoint.getImpulse, ratchetDemo, gearTick, fabs_real])
  have hb : ∀ x, x = 0 ∨ x = 1 → (((wheelMotion 1 0 (.ratchet (ratchetDemo 0 0 0))).tick gearTick).bodies x).w_bias = 0 := fun x hx =>
    (untouched_bias _ _ x (by simp [gearTick]) (by simp [Tick.Untouched, gearTick]) (gearCarries _ rfl _ hx)).2
  have e : relAngle ((wheelMotion 1 0 (.ratchet (ratchetDemo 0 0 0))).seen gearTick) 0 1 = 1 := by
    rw [wheelSeen]; simp [relAngle, gearMotion, gearWheel, Body.setTransform]
  rw [show (ratchetDemo 0 0 0).a = 0 from rfl, show (ratchetDemo 0 0 0).b = 1 from rfl, show (ratchetDemo 0 0 0).angle = 3 from rfl,
    show (ratchetDemo 0 0 0).ratchet = 1 from rfl, e, rp] at this
  have t3 := (this (by norm_num)).2 (by rw [t2]; simp [Joint.getImpulse, RatchetJoint.getImpulse, ratchetDemo, fabs_real])
  simp only [biasTurn, hb 0 (.inl rfl), hb 1 (.inr rfl)] at t3
  rw [C57_leftover_free _ _ _ (by simp [ratchetDemo, gearTick]; norm_num)] at t3
  linarith

/-- A pin of length 2. -/
noncomputable def pinDemo (n : Vec ℝ) (nMass acc bias : ℝ) : PinJoint ℝ :=
  { a := 0, b := 1, maxForce := 100, errorBias := 1 / 2, maxBias := 10, anchorA := ⟨0, 0⟩, anchorB := ⟨0, 0⟩, dist := 2, r1 := ⟨0, 0⟩, r2 := ⟨0, 0⟩, n := n, nMass := nMass
    jnAcc := acc, bias := bias }

/-- The hypotheses of `C57_pin` are met: a pin of length 2 takes a sled 4 away to the distance 3. -/
example : let m := sledMotion 4 0 (.pin (pinDemo ⟨0, 0⟩ 0 0 0))
    (gripGap ((m.tick gearTick).seen gearTick) 0 1 ⟨0, 0⟩ ⟨0, 0⟩).length = 3 := by
  intro m
  have q1 : Joint.preStep (m.seen gearTick) (.pin (pinDemo ⟨0, 0⟩ 0 0 0)) 1 = (sledBodies (4 + 0) 0, .pin (pinDemo ⟨1, 0⟩ 1 0 (-1))) := by
    rw [sledSeen]
    have c : clamp (-biasCoef (1 / 2 : ℝ) 1 * (4 - 2) / 1) (-10) 10 = -1 := by
      simp only [biasCoef, pow_real, Real.rpow_one]
      rw [clamp_id _ _ (by norm_num)]; norm_num
    have hd : ((sledBodies (4 + 0) 0 1).p.add (Vec.sub ⟨0, 0⟩ ((sledBodies (4 + 0) 0 0).p.add ⟨0, 0⟩))) = ⟨4, 0⟩ := by
      rw [show (sledBodies (4 + 0) 0 1).p = ⟨4 + 0, 0⟩ from rfl, show (sledBodies (4 + 0) 0 0).p = ⟨0, 0⟩ from rfl]
      ext <;> simp [Vec.add, Vec.sub]
    have hl : (⟨4, 0⟩ : Vec ℝ).length = 4 := by rw [length_flat]; norm_num
    have hn : (Vec.mult ⟨4, 0⟩ (1 / 4) : Vec ℝ) = ⟨1, 0⟩ := by ext <;> simp [Vec.mult]
    have hk : kScalar (sledBodies (4 + 0) 0) 0 1 ⟨0, 0⟩ ⟨0, 0⟩ ⟨1, 0⟩ = 1 := by simp [kScalar, kScalarBody, sledBodies, sled, Body.setTransform]
    simp only [Joint.preStep, PinJoint.preStep, Prod.map, id, pinDemo, sledOffset, hd, hl, c, if_pos (show (4:ℝ) ≠ 0 by norm_num), hn, hk]
    norm_num
  have q2 : Joint.applyCached (sledBodies (4 + 0) 0) (.pin (pinDemo ⟨1, 0⟩ 1 0 (-1))) 1 = (sledBodies (4 + 0) 0, .pin (pinDemo ⟨1, 0⟩ 1 0 (-1))) := by
    have := sledPush (4 + 0) 0 0 ⟨0, 0⟩ ⟨0, 0⟩
    rw [add_zero (0:ℝ)] at this
    simp [Joint.applyCached, PinJoint.applyCached, pinDemo, Vec.mult] at this ⊢
    exact this
  have q3 : Joint.applyImpulse (sledBodies (4 + 0) 0) (.pin (pinDemo ⟨1, 0⟩ 1 0 (-1))) 1 = (sledBodies (4 + 0) (0 + -1), .pin (pinDemo ⟨1, 0⟩ 1 (-1) (-1))) := by
    have hv : normalRelVel (sledBodies (4 + 0) 0) 0 1 ⟨0, 0⟩ ⟨0, 0⟩ ⟨1, 0⟩ = 0 := by
      simp [normalRelVel, relVel, sledBodies, sled, Body.setTransform, Vec.add, Vec.sub, Vec.mult, Vec.perp, Vec.dot]
    have c : clamp ((0:ℝ) + (-1 - 0) * 1) (-(100 * 1)) (100 * 1) = -1 := by rw [clamp_id _ _ (by norm_num)]; norm_num
    have hn : (Vec.mult ⟨1, 0⟩ (-1 - 0) : Vec ℝ) = ⟨-1, 0⟩ := by ext <;> simp [Vec.mult]
    simp only [Joint.applyImpulse, PinJoint.applyImpulse, Prod.map, id, pinDemo, hv, c, hn, sledPush]
  obtain ⟨t1, t2⟩ := gearTick_one (m := m) rfl q1 (sledIntegrate _ _) q2 q3
  have hp0 : (sledBodies (4 + 0) 0 0).p = ⟨0, 0⟩ ∧ (sledBodies (4 + 0) 0 1).p = ⟨4 + 0, 0⟩ := ⟨rfl, rfl⟩
  have := C57_pin m gearTick gearTick 0 (pinDemo ⟨0, 0⟩ 0 0 0) rfl (by simp [pinDemo]) one_pos rfl (gearLast _) (sledSolvable _ _) (by simp [gearTick])
    (by simp [pinDemo]) (sledUpToDate _ _ _) (sledUpToDate _ _ _)
    (by
      rw [sledSeen]
      show grip _ 0 ⟨0, 0⟩ ≠ grip _ 1 ⟨0, 0⟩
      rw [sledGrip, sledGrip, hp0.1, hp0.2]
      intro h
      have : (0:ℝ) = 4 + 0 := congrArg Vec.x h
      norm_num at this)
    (sledCarries _ (by rw [t1]; rfl) _ (.inl rfl)) (sledCarries _ (by rw [t1]; rfl) _ (.inr rfl))
    (by rw [t2]; simp [Joint.getImpulse, PinJoint.getImpulse, pinDemo, gearTick, fabs_real])
  have he : gripGap (m.seen gearTick) 0 1 ⟨0, 0⟩ ⟨0, 0⟩ = ⟨4, 0⟩ := by
    rw [sledSeen, gripGap, sledGrip, sledGrip]
    simp [sledBodies, sled, Body.setTransform, Vec.sub]
  have hs : swing (sledBodies (4 + 0) (0 + -1)) 0 ⟨0, 0⟩ 1 + swing (sledBodies (4 + 0) (0 + -1)) 1 ⟨0, 0⟩ 1 = 0 := by
    simp [swing, sledBodies, sled, Body.setTransform]
  have hp : (biasMove (sledBodies (4 + 0) (0 + -1)) 1 ⟨0, 0⟩ 1).sub (biasMove (sledBodies (4 + 0) (0 + -1)) 0 ⟨0, 0⟩ 1) = ⟨0, 0⟩ := by
    simp [biasMove, sledBodies, sled, Body.setTransform, Vec.add, Vec.mult, Vec.sub]
  have hv : (⟨4, 0⟩ : Vec ℝ).cross ((gripVel (sledBodies (4 + 0) (0 + -1)) 1 ⟨0, 0⟩).sub (gripVel (sledBodies (4 + 0) (0 + -1)) 0 ⟨0, 0⟩)) = 0 := by
    simp [gripVel, sledBodies, sled, Body.setTransform, Vec.add, Vec.mult, Vec.sub, Vec.cross]
  have hr : (pinDemo ⟨0, 0⟩ 0 0 0).errorBias ^ gearTick.dt = 1 / 2 := Real.rpow_one _
  simp only [show (pinDemo ⟨0, 0⟩ 0 0 0).a = 0 from rfl, show (pinDemo ⟨0, 0⟩ 0 0 0).b = 1 from rfl, show (pinDemo ⟨0, 0⟩ 0 0 0).anchorA = ⟨0, 0⟩ from rfl,
    show (pinDemo ⟨0, 0⟩ 0 0 0).anchorB = ⟨0, 0⟩ from rfl, show gearTick.dt = 1 from rfl, t1, hs, hp, he, hv] at this
  have h4 : (⟨4, 0⟩ : Vec ℝ).length = 4 := by rw [length_flat]; norm_num
  have hlo : leftover ((pinDemo ⟨0, 0⟩ 0 0 0).errorBias ^ (1:ℝ)) ((pinDemo ⟨0, 0⟩ 0 0 0).maxBias * 1) (4 - 2) = 1 := by
    rw [Real.rpow_one]
    simp only [pinDemo]
    rw [C57_leftover_free _ _ _ (by norm_num)]; norm_num
  have hdist : (pinDemo ⟨0, 0⟩ 0 0 0).dist = 2 := rfl
  rw [h4, hdist, hlo] at this
  have hsub : ∀ g : Vec ℝ, g.sub ⟨0, 0⟩ = g := by intro g; ext <;> simp [Vec.sub]
  rw [hsub] at this
  have h9 : Real.sqrt ((2 + 1) ^ 2 + (0 / 4 * 1) ^ 2) = 3 := by
    rw [show ((2:ℝ) + 1) ^ 2 + (0 / 4 * 1) ^ 2 = 3 ^ 2 by norm_num]
    exact Real.sqrt_sq (by norm_num)
  rw [h9] at this
  have := abs_nonpos_iff.1 this
  linarith

/-- A slide joint of length 1 to 2. -/
noncomputable def slideDemo : SlideJoint ℝ :=
  { a := 0, b := 1, maxForce := 100, errorBias := 1 / 2, maxBias := 10, anchorA := ⟨0, 0⟩, anchorB := ⟨0, 0⟩, min := 1, max := 2, r1 := ⟨0, 0⟩, r2 := ⟨0, 0⟩, n := ⟨0, 0⟩
    nMass := 0, jnAcc := 0, bias := 0 }

/-- The hypotheses of `C57_slide` are met by a sled that is 4 away: it gets pulled back. -/
example : let jp := { (slideDemo.preStep (sledBodies 4 0) 1).2 with jnAcc := 0 }
    (jp.applyImpulse (sledBodies 4 0) 1).2.getImpulse < slideDemo.maxForce * 1 ∧
    (relVel (jp.applyImpulse (sledBodies 4 0) 1).1 0 1 ⟨0, 0⟩ ⟨0, 0⟩).x < -9 / 10 := by
  intro jp
  have wf : ∀ k, (sledBodies 4 0 k).Wf := fun k =>
    seen_wf (m := sledMotion 4 0 (.motor (motorDemo 0 0))) (t := { gearTick with movers := [] }) (x := k) (by simp) (sledUpToDate 4 0 k)
  have hp0 : (sledBodies 4 0 0).p = ⟨0, 0⟩ ∧ (sledBodies 4 0 1).p = ⟨4, 0⟩ := ⟨rfl, rfl⟩
  have h4 : (⟨4, 0⟩ : Vec ℝ).length = 4 := by rw [length_flat]; norm_num
  have hd : (((sledBodies 4 0 1).p.add ⟨0, 0⟩).sub ((sledBodies 4 0 0).p.add ⟨0, 0⟩)) = ⟨4, 0⟩ := by
    rw [hp0.1, hp0.2]; ext <;> simp [Vec.add, Vec.sub]
  obtain ⟨c, hc⟩ : ∃ c : ℝ, c = 4 * (1 / (4 + 1 / 10 ^ 15)) := ⟨_, rfl⟩
  have hc1 : c ≤ 1 := by rw [hc]; norm_num
  have hc2 : 99 / 100 ≤ c := by rw [hc]; norm_num
  have hn : jp.n = ⟨c, 0⟩ ∧ jp.nMass = 1 ∧ jp.bias = -1 ∧ jp.r1 = ⟨0, 0⟩ ∧ jp.r2 = ⟨0, 0⟩ ∧ jp.a = 0 ∧ jp.b = 1 ∧ jp.jnAcc = 0 ∧ jp.maxForce = 100 := by
    have hnn : (⟨4, 0⟩ : Vec ℝ).normalize = ⟨c, 0⟩ := by
      rw [Vec.normalize, h4, lit_real]
      ext
      · rw [hc]; simp only [Vec.mult]; norm_num
      · simp [Vec.mult]
    have hk : kScalar (sledBodies 4 0) 0 1 ⟨0, 0⟩ ⟨0, 0⟩ ⟨c, 0⟩ = 1 := by simp [kScalar, kScalarBody, sledBodies, sled, Body.setTransform]
    have hb : clamp (-biasCoef (1 / 2 : ℝ) 1 * (4 - 2) / 1) (-10) 10 = -1 := by
      simp only [biasCoef, pow_real, Real.rpow_one]
      rw [clamp_id _ _ (by norm_num)]; norm_num
    simp only [jp, SlideJoint.preStep, slideDemo, sledOffset, hd, h4, if_pos (show (2:ℝ) < 4 by norm_num), hnn, hk, hb]
    norm_num
  obtain ⟨n1, n2, n3, n4, n5, n6, n7, n8, n9⟩ := hn
  have hv : (relVel (sledBodies 4 0) 0 1 ⟨0, 0⟩ ⟨0, 0⟩) = ⟨0, 0⟩ := by
    simp [relVel, sledBodies, sled, Body.setTransform, Vec.add, Vec.sub, Vec.mult, Vec.perp]
  have hcl : clamp ((0:ℝ) + (-1 - Vec.dot ⟨0, 0⟩ ⟨c, 0⟩) * 1) (-100 * 1) 0 = -1 := by
    rw [clamp_eq_real _ _ _ (by norm_num)]; simp [Vec.dot]
  have hlim : (jp.applyImpulse (sledBodies 4 0) 1).2.getImpulse = 1 := by
    simp only [SlideJoint.applyImpulse, n1, n2, n3, n4, n5, n6, n7, n8, n9]
    rw [if_neg (by rintro ⟨h, -⟩; have h' : c = 0 := h; linarith)]
    simp only [SlideJoint.getImpulse, fabs_real, hv]
    rw [hcl]; norm_num
  refine ⟨by rw [hlim]; simp only [slideDemo]; norm_num, ?_⟩
  have := (C57_slide 1 slideDemo (sledBodies 4 0) (sledBodies 4 0) (by simp [slideDemo]) ⟨rfl, rfl, rfl, rfl⟩ (sledSolvable _ _) (wf _) (wf _) one_pos (by simp [slideDemo])
    0 jp rfl (by rw [hlim]; simp only [slideDemo]; norm_num))
  have he : gripGap (sledBodies 4 0) 0 1 ⟨0, 0⟩ ⟨0, 0⟩ = ⟨4, 0⟩ := by
    rw [gripGap, sledGrip, sledGrip]
    simp [sledBodies, sled, Body.setTransform, Vec.sub]
  simp only [show slideDemo.a = 0 from rfl, show slideDemo.b = 1 from rfl, show slideDemo.anchorA = ⟨0, 0⟩ from rfl, show slideDemo.anchorB = ⟨0, 0⟩ from rfl,
    show slideDemo.max = 2 from rfl, he, h4, sledOffset] at this
  obtain ⟨θ, t0, t1, t2, -⟩ := (this (by norm_num)).1 (by norm_num)
  have hlo : leftover (slideDemo.errorBias ^ (1:ℝ)) (slideDemo.maxBias * 1) (4 - 2) = 1 := by
    rw [Real.rpow_one]
    simp only [slideDemo]
    rw [C57_leftover_free _ _ _ (by norm_num)]; norm_num
  rw [hlo, hv] at t2
  have hθ : θ ≤ 1 / 100 := by refine t1.trans ?_; norm_num
  have hcc : (4:ℝ) / (4 + 1 / 10 ^ 15) = c := by rw [hc]; ring
  rw [hcc] at t2
  simp only [Vec.dot] at t2
  generalize (relVel (jp.applyImpulse (sledBodies 4 0) 1).1 0 1 ⟨0, 0⟩ ⟨0, 0⟩) = V at *
  have e : (V.x * 4 + V.y * 0) / 4 = V.x := by ring
  rw [e] at t2
  norm_num at t2
  by_contra hx
  push Not at hx
  nlinarith

end CP
