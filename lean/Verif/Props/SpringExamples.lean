import Verif.Props.Spring
import Verif.Props.CorrectExamples

/-! # C61: concrete cases -/

namespace CP
open GoFloat Filter Topology

/-- A disc of mass 1 and moment of inertia 1. -/
noncomputable def bob (x a w : ℝ) : Body ℝ :=
  Body.setTransform {
             m := 1, m_inv := 1, i := 1, i_inv := 1, cog := ⟨0, 0⟩, p := ⟨x, 0⟩, v := ⟨0, 0⟩, f := ⟨0, 0⟩, a := a, w := w, t := 0
             transform := ⟨1, 0, 0, 1, 0, 0⟩, v_bias := ⟨0, 0⟩, w_bias := 0, shapes := [], idle := 0 } ⟨x, 0⟩ a

/-- Two discs, 11 apart and turned by 1, and a joint. -/
noncomputable def bobs (w : ℝ) (j : Joint ℝ) : Motion ℝ :=
  { bodies := fun k => if k = 0 then bob 0 1 w else bob 11 0 0, joints := fun _ => j, currDt := 0 }

/-- A step in which only the joint acts. -/
noncomputable def bobTick (dt : ℝ) : Tick ℝ where
  dt := dt
  gravity := ⟨0, 0⟩
  damping := 1
  iterations := 10
  slop := 1 / 10
  collisionBias := 0
  movers := [0, 1]
  dyn := [0, 1]
  arbs := []
  contact := fun _ => { e := 1, u := 1, surface_vr := ⟨0, 0⟩, a := 7, b := 8, n := ⟨1, 0⟩, first := false, contacts := [] }
  joints := [0]

/-- The states after `n` steps. -/
noncomputable def bobRun (w dt : ℝ) (j : Joint ℝ) (n : Nat) : Motion ℝ := (fun m : Motion ℝ => m.tick (bobTick dt))^[n] (bobs w j)

theorem bobRun_con (w dt : ℝ) (j : Joint ℝ) : ∀ n, ((bobRun w dt j n).joints 0).con = j.con
  | 0 => rfl
  | n + 1 => by
    have e : bobRun w dt j (n + 1) = (bobRun w dt j n).tick (bobTick dt) := Function.iterate_succ_apply' _ _ _
    rw [e, joint_con_tick]; exact bobRun_con w dt j n

theorem bob_sole (dt : ℝ) (hdt : 0 < dt) (m : Motion ℝ) (ha : (m.joints 0).con.a = 0) (hb : (m.joints 0).con.b = 1) : (bobTick dt).Sole m 0 where
  pos := hdt
  dyn := by simp [bobTick]
  ne := by rw [ha, hb]; decide
  once := by simp [bobTick]
  others := by intro i hi hne; simp [bobTick] at hi; exact absurd hi hne
  untouched := by intro x _ i hi; simp [bobTick] at hi

theorem bob_swinging (w dt : ℝ) (hdt : 0 < dt) (j : Joint ℝ) (ha : j.con.a = 0) (hb : j.con.b = 1) : Swinging (bobRun w dt j) (fun _ => bobTick dt) dt 0 0 1 where
  step := fun n => Function.iterate_succ_apply' _ _ _
  length := fun _ => rfl
  iterations := fun _ => by simp [bobTick]
  sole := fun n => bob_sole dt hdt _ (by rw [bobRun_con]; exact ha) (by rw [bobRun_con]; exact hb)
  damping := fun _ => rfl
  carried := fun n x hx => ⟨by simp [bobTick], .inl (by rcases hx with rfl | rfl <;> simp [bobTick])⟩
  still := by
    rintro x (rfl | rfl) <;> simp [bobRun, bobs, bob, Body.setTransform]

/-- A rotary spring between the discs. -/
noncomputable def coil (stiffness damping : ℝ) : DampedRotarySpring ℝ :=
  { a := 0, b := 1, maxForce := 1, errorBias := 1 / 2, maxBias := 1, restAngle := 0, stiffness := stiffness, damping := damping
    torque := DampedRotarySpring.defaultTorque 0 stiffness, targetWrn := 0, wCoef := 0, iSum := 0, jAcc := 0 }

theorem bob_inertia (w dt : ℝ) (j : Joint ℝ) : ((bobRun w dt j 0).bodies 0).i_inv = 1 ∧ ((bobRun w dt j 0).bodies 1).i_inv = 1 ∧
    ((bobRun w dt j 0).bodies 0).m_inv = 1 ∧ ((bobRun w dt j 0).bodies 1).m_inv = 1 := ⟨rfl, rfl, rfl, rfl⟩

/-- The numbers of the coil and of the spring below. -/
theorem coil_strength (w dt x d : ℝ) (j : Joint ℝ) : (coil x d).strength (bobRun w dt j 0).bodies dt = x * (1 + 1) * dt ^ 2 := rfl

theorem coil_decay (w dt x d : ℝ) (j : Joint ℝ) : (coil x d).decay (bobRun w dt j 0).bodies dt = d * (1 + 1) * dt := rfl

theorem coil_inertia (w dt x d : ℝ) (j : Joint ℝ) : 0 < ((bobRun w dt j 0).bodies (coil x d).a).i_inv + ((bobRun w dt j 0).bodies (coil x d).b).i_inv := by
  show (0 : ℝ) < 1 + 1
  norm_num

/-- A damped coil turns the discs back to each other, -/
example : Tendsto (fun n => ((bobRun 0 (1 / 10) (.rotarySpring (coil 1 1)) n).bodies 0).a - ((bobRun 0 (1 / 10) (.rotarySpring (coil 1 1)) n).bodies 1).a) atTop (𝓝 0) := by
  have S := bob_swinging 0 (1 / 10) (by norm_num) (.rotarySpring (coil 1 1)) rfl rfl
  refine (C61_rotary_settles (j := coil 1 1) S rfl rfl (coil_inertia ..) (show (0 : ℝ) < 1 from one_pos) (show (0 : ℝ) < 1 from one_pos) ?_).1
  rw [coil_strength, coil_decay]
  have := Real.exp_pos (1 * (1 + 1) * (1 / 10))
  linarith

/-- and one that is too stiff for steps of one second lets them turn ever wilder. -/
example : ∀ C : ℝ, ∃ n, C < |((bobRun 0 1 (.rotarySpring (coil 3 0)) n).bodies 0).a - ((bobRun 0 1 (.rotarySpring (coil 3 0)) n).bodies 1).a - 0| := by
  have S := bob_swinging 0 1 (by norm_num) (.rotarySpring (coil 3 0)) rfl rfl
  refine C61_rotary_explodes (j := coil 3 0) S rfl rfl (coil_inertia ..) (show (0 : ℝ) ≤ 0 from le_rfl) rfl ?_ ?_
  · show (1 : ℝ) - 0 ≠ 0
    norm_num
  · rw [coil_strength, coil_decay]
    norm_num

/-- Without damping and with short steps they swing within a bound. -/
example (n : Nat) : (((bobRun 0 1 (.rotarySpring (coil 1 0)) n).bodies 0).a - ((bobRun 0 1 (.rotarySpring (coil 1 0)) n).bodies 1).a) ^ 2 ≤ 2 := by
  have S := bob_swinging 0 1 (by norm_num) (.rotarySpring (coil 1 0)) rfl rfl
  have h := C61_rotary_undamped (j := coil 1 0) S rfl rfl (coil_inertia ..) (show (0 : ℝ) < 1 from one_pos) rfl
    (by rw [coil_strength]; norm_num) rfl n
  rw [coil_strength] at h
  have h2 : (((bobRun 0 1 (.rotarySpring (coil 1 0)) n).bodies 0).a - ((bobRun 0 1 (.rotarySpring (coil 1 0)) n).bodies 1).a - 0) ^ 2 * (1 - 1 * (1 + 1) * 1 ^ 2 / 4) ≤ ((1 : ℝ) - 0 - 0) ^ 2 := h
  rw [sub_zero] at h2
  linarith

/-- **C61**, violated: a coil that only damps brakes the discs with the impulse `J`, and `GetImpulse` reports `-J`. -/
theorem C61_rotary_impulse_case : ∃ (m : Motion ℝ) (t : Tick ℝ) (J : ℝ), J ≠ 0 ∧
    ((m.tick t).bodies 0).w = (m.bodies 0).w - (m.bodies 0).i_inv * J ∧ ((m.tick t).bodies 1).w = (m.bodies 1).w + (m.bodies 1).i_inv * J ∧
    ((m.tick t).joints 0).getImpulse = -J := by
  obtain ⟨m, hm⟩ : ∃ m, m = bobs 2 (.rotarySpring (coil 0 1)) := ⟨_, rfl⟩
  obtain ⟨t, ht⟩ : ∃ t, t = bobTick 1 := ⟨_, rfl⟩
  have hs : t.Sole m 0 := by rw [hm, ht]; exact bob_sole 1 one_pos _ rfl rfl
  have hk : m.joints 0 = .rotarySpring (coil 0 1) := by rw [hm]; rfl
  have hu : t.Unforced m 0 := by
    rw [hm, ht]
    exact ⟨rfl, fun x hx => by
      simp only [bobs]
      split <;> simp [bob, Body.setTransform]⟩
  have i0 : (m.bodies (coil 0 1).a).i_inv = 1 := by rw [hm]; rfl
  have i1 : (m.bodies (coil 0 1).b).i_inv = 1 := by rw [hm]; rfl
  have w0 : (m.bodies (coil 0 1).a).w = 2 := by rw [hm]; rfl
  have w1 : (m.bodies (coil 0 1).b).w = 0 := by rw [hm]; rfl
  have hi : 0 < (m.bodies (coil 0 1).a).i_inv + (m.bodies (coil 0 1).b).i_inv := by rw [i0, i1]; norm_num
  have hit : 0 < t.iterations := by rw [ht]; simp [bobTick]
  have hdt : t.dt = 1 := by rw [ht]; rfl
  have S0 : ∀ x, (coil 0 1).torque x = 0 := by intro x; simp [coil, DampedRotarySpring.defaultTorque]
  obtain ⟨h1, J, h2, h3⟩ := C61_rotary hs hk hu hi hit
  have h4 := C61_rotary_impulse_violated hs hk hu hi hit J h2 h3
  refine ⟨m, t, J, ?_, h2, h3, ?_⟩
  · rintro rfl
    rw [h2, h3, S0, i0, i1, w0, w1, hdt] at h1
    have e : Real.exp (-(coil 0 1).damping * 1 * (1 + 1)) < 1 := by
      rw [Real.exp_lt_one_iff]
      show -(1 : ℝ) * 1 * (1 + 1) < 0
      norm_num
    nlinarith
  · simp only [S0] at h4
    rw [h4]; ring

/-- A spring of rest length 10 between the centres of the discs. -/
noncomputable def lash (stiffness damping : ℝ) : DampedSpring ℝ :=
  { a := 0, b := 1, maxForce := 1, errorBias := 1 / 2, maxBias := 1, anchorA := ⟨0, 0⟩, anchorB := ⟨0, 0⟩, restLength := 10
    stiffness := stiffness, damping := damping, force := DampedSpring.defaultForce 10 stiffness, targetVrn := 0, vCoef := 0, r1 := ⟨0, 0⟩, r2 := ⟨0, 0⟩
    nMass := 0, n := ⟨0, 0⟩, jAcc := 0 }

theorem lash_strength (w dt x d : ℝ) (j : Joint ℝ) : (lash x d).strength (bobRun w dt j 0).bodies dt = x * (1 + 1) * dt ^ 2 := rfl

theorem lash_decay (w dt x d : ℝ) (j : Joint ℝ) : (lash x d).decay (bobRun w dt j 0).bodies dt = d * (1 + 1) * dt := rfl

theorem lash_line (dt : ℝ) (hdt : 0 < dt) (x d : ℝ) : OnLineSpring (bobRun 0 dt (.spring (lash x d))) (fun _ => bobTick dt) dt 0 (lash x d) ⟨1, 0⟩ where
  swinging := bob_swinging 0 dt hdt (.spring (lash x d)) rfl rfl
  joint := rfl
  hooke := rfl
  gravity := fun _ => rfl
  solvable := by
    constructor
    all_goals first | (show (0 : ℝ) ≤ 1; norm_num) | (show (0 : ℝ) < 1 + 1; norm_num)
  anchorA := rfl
  anchorB := rfl
  unit := by simp [Vec.dot]
  start := ⟨11, 0, by simp [bobRun, bobs, bob, lash, Body.setTransform, Vec.sub, Vec.mult], by simp [bobRun, bobs, bob, lash, Body.setTransform, Vec.sub, Vec.mult]⟩

theorem lash_along (dt : ℝ) (j : Joint ℝ) (x d : ℝ) : distAlong (bobRun 0 dt j 0).bodies (lash x d).a (lash x d).b ⟨1, 0⟩ = 11 := by
  simp [distAlong, bobRun, bobs, bob, lash, Body.setTransform, Vec.sub, Vec.dot]

theorem lash_speed (dt : ℝ) (j : Joint ℝ) (x d : ℝ) : speedAlong (bobRun 0 dt j 0).bodies (lash x d).a (lash x d).b ⟨1, 0⟩ = 0 := by
  simp [speedAlong, bobRun, bobs, bob, lash, Body.setTransform, Vec.sub, Vec.dot]

/-- Stretched by one tenth of its length, a damped spring draws the discs to the right distance, -/
example : ∃ j : DampedSpring ℝ, j.restLength = 10 ∧ Tendsto (fun n => ((bobRun 0 (1 / 10) (.spring j) n).bodies 0).p.distance ((bobRun 0 (1 / 10) (.spring j) n).bodies 1).p) atTop (𝓝 10) := by
  obtain ⟨d, hd⟩ : ∃ d, d = -(5 * Real.log (9 / 10)) := ⟨_, rfl⟩
  have hd0 : 0 < d := by
    have := Real.log_neg (x := 9 / 10) (by norm_num) (by norm_num)
    rw [hd]; linarith
  have hq : (9 / 10 : ℝ) = Real.exp (-(lash 50 d).decay (bobRun 0 (1 / 10) (.spring (lash 50 d)) 0).bodies (1 / 10)) := by
    rw [lash_decay, hd]
    have : -(-(5 * Real.log (9 / 10)) * (1 + 1) * (1 / 10)) = Real.log (9 / 10 : ℝ) := by ring
    rw [this, Real.exp_log (by norm_num)]
  have hs : (1 : ℝ) = (lash 50 d).strength (bobRun 0 (1 / 10) (.spring (lash 50 d)) 0).bodies (1 / 10) := by
    rw [lash_strength]; norm_num
  have L := lash_line (1 / 10) (by norm_num) 50 d
  refine ⟨lash 50 d, rfl, ?_⟩
  have hb := fun n => (C61_bounded L (lash_speed ..) (show (0 : ℝ) ≤ d from hd0.le) (show (0 : ℝ) < 10 by norm_num) (9 / 10) 1 hq hs (by norm_num)
    (by rw [lash_along]; show _ * (11 - (10 : ℝ)) ^ 2 < _ * (10 : ℝ) ^ 2; norm_num) n).1
  refine (C61_settles L hb (show (0 : ℝ) < 50 by norm_num) (show (0 : ℝ) < d from hd0) ?_).1
  rw [← hs]
  have := Real.exp_pos ((lash 50 d).decay (bobRun 0 (1 / 10) (.spring (lash 50 d)) 0).bodies (1 / 10))
  linarith

/-- and one that is too stiff for steps of one second throws them through each other. -/
example : ∃ n, distAlong (bobRun 0 1 (.spring (lash 3 0)) n).bodies 0 1 ⟨1, 0⟩ ≤ 0 := by
  refine C61_too_stiff (lash_line 1 one_pos 3 0) (lash_speed ..) (show (0 : ℝ) ≤ 0 from le_rfl) ?_ ?_
  · rw [lash_along]; show (11 : ℝ) ≠ 10; norm_num
  · rw [lash_strength, lash_decay]; norm_num

/-- In one step of one second the spring gives the discs some impulse, and reports it. -/
example : ∃ J, (((bobs 0 (.spring (lash 3 0))).tick (bobTick 1)).joints 0).getImpulse = J ∧
    Pulled ((bobs 0 (.spring (lash 3 0))).seen (bobTick 1)) ((bobs 0 (.spring (lash 3 0))).tick (bobTick 1)).bodies 0 1
      ((grip ((bobs 0 (.spring (lash 3 0))).seen (bobTick 1)) 0 ⟨0, 0⟩).sub ((bobs 0 (.spring (lash 3 0))).seen (bobTick 1) 0).p)
      ((grip ((bobs 0 (.spring (lash 3 0))).seen (bobTick 1)) 1 ⟨0, 0⟩).sub ((bobs 0 (.spring (lash 3 0))).seen (bobTick 1) 1).p)
      (((gripGap ((bobs 0 (.spring (lash 3 0))).seen (bobTick 1)) 0 1 ⟨0, 0⟩ ⟨0, 0⟩).mult (1 / (gripGap ((bobs 0 (.spring (lash 3 0))).seen (bobTick 1)) 0 1 ⟨0, 0⟩ ⟨0, 0⟩).length)).mult J) := by
  obtain ⟨m, hm⟩ : ∃ m, m = bobs 0 (.spring (lash 3 0)) := ⟨_, rfl⟩
  obtain ⟨t, ht⟩ : ∃ t, t = bobTick 1 := ⟨_, rfl⟩
  have sv : Solvable m.bodies (lash 3 0).a (lash 3 0).b := by rw [hm]; exact (lash_line 1 one_pos 3 0).solvable
  have ud : ∀ x, UpToDate m.bodies x := by
    intro x
    rw [hm]
    by_cases h : x = 0 <;> simp [bobs, h, UpToDate, bob, Body.setTransform]
  have ca : ∀ x, x = 0 ∨ x = 1 → t.Carries m.bodies x := by
    intro x hx
    rw [hm, ht]
    exact (bob_swinging 0 1 one_pos (.spring (lash 3 0)) rfl rfl).carried 0 x hx
  have hmv : t.movers.Nodup := by rw [ht]; simp [bobTick]
  have gr : ∀ x, x = 0 ∨ x = 1 → grip (m.seen t) x ⟨0, 0⟩ = (m.bodies x).p := by
    intro x hx
    have e : (⟨0, 0⟩ : Vec ℝ) = (m.seen t x).cog := by
      rw [seen_cog, hm]
      rcases hx with rfl | rfl <;> simp [bobs, bob, Body.setTransform]
    rw [e, grip_eq (seen_wf hmv (ud x)), offset_cog, carried_pos (ca x hx), hm]
    rcases hx with rfl | rfl <;> simp [bobs, bob, Body.setTransform, Vec.add, Vec.mult]
  have hne : grip (m.seen t) (lash 3 0).a (lash 3 0).anchorA ≠ grip (m.seen t) (lash 3 0).b (lash 3 0).anchorB := by
    show grip (m.seen t) 0 ⟨0, 0⟩ ≠ grip (m.seen t) 1 ⟨0, 0⟩
    rw [gr 0 (.inl rfl), gr 1 (.inr rfl), hm]
    simp [bobs, bob, Body.setTransform]
  have hu : t.Unforced m 0 := by
    rw [hm, ht]
    exact ⟨rfl, fun x hx => by
      simp only [bobs]
      split <;> simp [bob, Body.setTransform]⟩
  obtain ⟨J, h1, h2, -⟩ := C61_spring (m := m) (t := t) (k := 0) (j := lash 3 0)
    (by rw [hm, ht]; exact bob_sole 1 one_pos _ rfl rfl) (by rw [hm]; rfl) hu (by rw [ht]; rfl) sv (by rw [ht]; simp [bobTick]) hmv (ud _) (ud _) hne
  rw [← hm, ← ht]
  exact ⟨J, h2, h1⟩

/-- **C61**, violated: two discs on top of each other, with a spring of rest length 10 between their centres: the spring leaves them there, though it
reports an impulse of 30. -/
theorem C61_coincident_case : ∃ (m : Motion ℝ) (t : Tick ℝ) (j : DampedSpring ℝ), m.joints 0 = .spring j ∧ j.restLength = 10 ∧
    j.force = DampedSpring.defaultForce j.restLength j.stiffness ∧ (m.bodies j.a).p = (m.bodies j.b).p ∧ (m.bodies j.a).m_inv = 1 ∧ (m.bodies j.b).m_inv = 1 ∧
    ((m.tick t).bodies j.a).v = ⟨0, 0⟩ ∧ ((m.tick t).bodies j.b).v = ⟨0, 0⟩ ∧ ((m.tick t).joints 0).getImpulse = 30 := by
  obtain ⟨m, hm⟩ : ∃ m : Motion ℝ, m = { bodies := fun _ => bob 0 0 0, joints := fun _ => .spring (lash 3 0), currDt := 0 } := ⟨_, rfl⟩
  obtain ⟨t, ht⟩ : ∃ t, t = bobTick 1 := ⟨_, rfl⟩
  have ud : ∀ x, UpToDate m.bodies x := by
    intro x
    rw [hm]
    simp [UpToDate, bob, Body.setTransform]
  have hmv : t.movers.Nodup := by rw [ht]; simp [bobTick]
  have ca : ∀ x, x = 0 ∨ x = 1 → t.Carries m.bodies x := by
    intro x hx
    rw [hm, ht]
    exact ⟨by simp [bobTick], .inl (by rcases hx with rfl | rfl <;> simp [bobTick])⟩
  have gr : ∀ x, x = 0 ∨ x = 1 → grip (m.seen t) x ⟨0, 0⟩ = ⟨0, 0⟩ := by
    intro x hx
    have e : (⟨0, 0⟩ : Vec ℝ) = (m.seen t x).cog := by
      rw [seen_cog, hm]
      simp [bob, Body.setTransform]
    conv_lhs => rw [e]
    rw [grip_eq (seen_wf hmv (ud x)), offset_cog, carried_pos (ca x hx), hm]
    simp [bob, Body.setTransform, Vec.add, Vec.mult]
  have hu : t.Unforced m 0 := by
    rw [hm, ht]
    exact ⟨rfl, fun x hx => by simp [bob, Body.setTransform]⟩
  have hk : m.joints 0 = .spring (lash 3 0) := by rw [hm]
  obtain ⟨h1, h2⟩ := C61_coincident_violated (m := m) (t := t) (k := 0) (j := lash 3 0)
    (by rw [hm, ht]; exact bob_sole 1 one_pos _ rfl rfl) hk hu (by rw [ht]; rfl) hmv (ud _) (ud _)
    ((gr 0 (.inl rfl)).trans (gr 1 (.inr rfl)).symm)
  have v0 : ∀ x, (m.bodies x).v = ⟨0, 0⟩ := by intro x; rw [hm]; rfl
  refine ⟨m, t, lash 3 0, hk, rfl, rfl, by rw [hm], by rw [hm]; rfl, by rw [hm]; rfl, (h1 _ (.inl rfl)).1.trans (v0 _), (h1 _ (.inr rfl)).1.trans (v0 _), ?_⟩
  rw [h2, ht]
  show (10 - 0) * (3 : ℝ) * 1 = 30
  norm_num

end CP
