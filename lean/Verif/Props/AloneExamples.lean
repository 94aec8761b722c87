import Verif.Props.AloneRuns
import Verif.Props.SpringExamples

/-! # C62: concrete cases -/

namespace CP
open GoFloat

theorem bob_ready (w dt : ℝ) (j : Joint ℝ) : (∀ x, UpToDate (bobs w j).bodies x) ∧ Solvable (bobs w j).bodies 0 1 ∧ (bobTick dt).movers.Nodup ∧ 0 < (bobTick dt).iterations ∧
    (∀ x, x = 0 ∨ x = 1 → ((bobs w j).bodies x).f = ⟨0, 0⟩ ∧ ((bobs w j).bodies x).t = 0) := by
  refine ⟨fun x => ?_, ?_, by simp [bobTick], by simp [bobTick], fun x hx => ?_⟩
  · by_cases h : x = 0 <;> simp [bobs, h, UpToDate, bob, Body.setTransform]
  · constructor
    all_goals first | (show (0 : ℝ) ≤ 1; norm_num) | (show (0 : ℝ) < 1 + 1; norm_num)
  · rcases hx with rfl | rfl <;> simp [bobs, bob, Body.setTransform]

theorem bob_carried (w dt : ℝ) (j : Joint ℝ) (x : Nat) (hx : x = 0 ∨ x = 1) : (bobTick dt).Carries (bobs w j).bodies x :=
  ⟨by simp [bobTick], .inl (by rcases hx with rfl | rfl <;> simp [bobTick])⟩

theorem bob_free (w dt : ℝ) (hdt : 0 < dt) (j : Joint ℝ) :
    (((bobs w j).tick (bobTick dt).free).bodies 0).w = w ∧ (((bobs w j).tick (bobTick dt).free).bodies 1).w = 0 ∧
    (((bobs w j).tick (bobTick dt).free).bodies 0).a = 1 + w * dt ∧ (((bobs w j).tick (bobTick dt).free).bodies 1).a = 0 ∧
    (((bobs w j).tick (bobTick dt).free).bodies 0).i_inv = 1 ∧ (((bobs w j).tick (bobTick dt).free).bodies 1).i_inv = 1 := by
  have hn : (bobTick dt).dyn.Nodup := by simp [bobTick]
  have hz : (bobTick dt).dt ≠ 0 := hdt.ne'
  have ff := free_frozen (bobs w j) (bobTick dt) hz hn
  have F := (bob_ready w dt j).2.2.2.2
  have c0 := carried_angle (bob_carried w dt j 0 (.inl rfl))
  have c1 := carried_angle (bob_carried w dt j 1 (.inr rfl))
  refine ⟨?_, ?_, ?_, ?_, ?_, ?_⟩
  · exact (free_spin hz hn rfl (F 0 (.inl rfl))).trans (by simp [bobs, bob, Body.setTransform])
  · exact (free_spin hz hn rfl (F 1 (.inr rfl))).trans (by simp [bobs, bob, Body.setTransform])
  · rw [(ff _).a, c0]; simp [bobs, bob, Body.setTransform, bobTick]
  · rw [(ff _).a, c1]; simp [bobs, bob, Body.setTransform]
  · rw [(ff _).i_inv, (seen_inertia _ _ _).2]; simp [bobs, bob, Body.setTransform]
  · rw [(ff _).i_inv, (seen_inertia _ _ _).2]; simp [bobs, bob, Body.setTransform]

theorem bob_grip (w dt : ℝ) (j : Joint ℝ) (x : Nat) (hx : x = 0 ∨ x = 1) : grip ((bobs w j).seen (bobTick dt)) x ⟨0, 0⟩ = ((bobs w j).bodies x).p := by
  have e : (⟨0, 0⟩ : Vec ℝ) = ((bobs w j).seen (bobTick dt) x).cog := by
    rw [seen_cog]
    rcases hx with rfl | rfl <;> simp [bobs, bob, Body.setTransform]
  rw [e, grip_eq (seen_wf (bob_ready w dt j).2.2.1 ((bob_ready w dt j).1 x)), offset_cog, carried_pos (bob_carried w dt j x hx)]
  rcases hx with rfl | rfl <;> simp [bobs, bob, Body.setTransform, Vec.add, Vec.mult]

/-- A motor between the discs. -/
noncomputable def crank (rate force stored : ℝ) : SimpleMotor ℝ :=
  { a := 0, b := 1, maxForce := force, errorBias := 1 / 2, maxBias := 1, rate := rate, iSum := 0, jAcc := stored }

/-- In one step of one second a strong motor turns the discs at its rate, -/
example : (((bobs 0 (.motor (crank 2 3 0))).tick (bobTick 1)).bodies 1).w - (((bobs 0 (.motor (crank 2 3 0))).tick (bobTick 1)).bodies 0).w = -2 ∧
    (((bobs 0 (.motor (crank 2 3 0))).tick (bobTick 1)).joints 0).getImpulse = 1 := by
  obtain ⟨w0, w1, -, -, i0, i1⟩ := bob_free 0 1 one_pos (.motor (crank 2 3 0))
  obtain ⟨P, hP, sp, hg⟩ := C62_motor (bob_sole 1 one_pos (bobs 0 (.motor (crank 2 3 0))) rfl rfl) rfl (show (0 : ℝ) < 1 + 1 by norm_num)
    (bob_ready 0 1 (.motor (crank 2 3 0))).2.2.2.1 (show (0 : ℝ) ≤ 3 by norm_num) (.inl rfl)
  have hP' : P = max (-(3 * 1)) (min ((-2 - (0 - 0)) / (1 + 1)) (3 * 1)) := by
    have : P = max (-(3 * 1)) (min ((-2 - ((((bobs 0 (.motor (crank 2 3 0))).tick (bobTick 1).free).bodies 1).w - (((bobs 0 (.motor (crank 2 3 0))).tick (bobTick 1).free).bodies 0).w)) / (1 + 1)) (3 * 1)) := hP
    rw [w0, w1] at this; exact this
  have hP1 : P = -1 := by
    rw [hP', min_eq_left (by norm_num), max_eq_right (by norm_num)]; norm_num
  have wa := sp.wa
  have wb := sp.wb
  simp only [show (crank 2 3 0).a = 0 from rfl, show (crank 2 3 0).b = 1 from rfl] at wa wb
  rw [w0, i0, hP1] at wa
  rw [w1, i1, hP1] at wb
  rw [wa, wb, hg, hP1]
  norm_num

/-- and a weak one needs ten of a tenth of a second, and then holds it. -/
example (n : Nat) (h : 10 ≤ n) : ((bobRun 0 (1 / 10) (.motor (crank 2 1 0)) n).bodies 1).w - ((bobRun 0 (1 / 10) (.motor (crank 2 1 0)) n).bodies 0).w - -2 = 0 := by
  have S := bob_swinging 0 (1 / 10) (by norm_num) (.motor (crank 2 1 0)) rfl rfl
  refine (C62_motor_spins_up (j := crank 2 1 0) S rfl (show (0 : ℝ) < 1 + 1 by norm_num) (show (0 : ℝ) ≤ 1 by norm_num) (.inl rfl) n).2.1 ?_
  show |(0 : ℝ) - 0 - -2| ≤ n * ((1 + 1) * (1 * (1 / 10)))
  have h' : (10 : ℝ) ≤ n := by exact_mod_cast h
  rw [abs_of_pos (by norm_num)]
  linarith

example : ∃ N, ∀ n, N ≤ n → ((bobRun 0 (1 / 10) (.motor (crank 2 1 0)) n).bodies 1).w - ((bobRun 0 (1 / 10) (.motor (crank 2 1 0)) n).bodies 0).w = -2 :=
  C62_motor_arrives (j := crank 2 1 0) (bob_swinging 0 (1 / 10) (by norm_num) (.motor (crank 2 1 0)) rfl rfl) rfl (show (0 : ℝ) < 1 + 1 by norm_num)
    (show (0 : ℝ) < 1 by norm_num) (.inl rfl)

/-- **C62**, violated: a motor of `MaxForce` 1 that used all of it in a step of one second gives the discs 3 in a step of two seconds, and reports 2. -/
theorem C62_longer_step_case : ∃ (m : Motion ℝ) (t : Tick ℝ) (j : SimpleMotor ℝ), m.joints 0 = .motor j ∧ j.maxForce = 1 ∧ m.currDt = 1 ∧ j.jAcc = 1 ∧ t.dt = 2 ∧
    ((m.tick t).bodies j.b).w = (m.bodies j.b).w + (m.bodies j.b).i_inv * 3 ∧ ((m.tick t).bodies j.a).w = (m.bodies j.a).w - (m.bodies j.a).i_inv * 3 ∧
    ((m.tick t).joints 0).getImpulse = 2 := by
  obtain ⟨m, hm⟩ : ∃ m : Motion ℝ, m = { bobs 0 (.motor (crank (-100) 1 1)) with currDt := 1 } := ⟨_, rfl⟩
  obtain ⟨t, ht⟩ : ∃ t, t = bobTick 2 := ⟨_, rfl⟩
  have hk : m.joints 0 = .motor (crank (-100) 1 1) := by rw [hm]; rfl
  have hdt : t.dt = 2 := by rw [ht]; rfl
  have hc : m.currDt = 1 := by rw [hm]
  have hF : (crank (-100) 1 1).maxForce = 1 := rfl
  have hs : t.Sole m 0 := by rw [ht]; exact bob_sole 2 (by norm_num) m (by rw [hk]; rfl) (by rw [hk]; rfl)
  have i0 : (m.bodies (crank (-100) 1 1).a).i_inv = 1 := by rw [hm]; rfl
  have i1 : (m.bodies (crank (-100) 1 1).b).i_inv = 1 := by rw [hm]; rfl
  have F : ∀ x, x = 0 ∨ x = 1 → (m.bodies x).f = ⟨0, 0⟩ ∧ (m.bodies x).t = 0 := by rw [hm]; exact (bob_ready 0 2 (.motor (crank (-100) 1 1))).2.2.2.2
  have hd : t.damping = 1 := by rw [ht]; rfl
  have f0 := free_spin hs.pos.ne' hs.dyn hd (F 0 (.inl rfl))
  have f1 := free_spin hs.pos.ne' hs.dyn hd (F 1 (.inr rfl))
  have ff := free_frozen m t hs.pos.ne' hs.dyn
  have z0 : (m.bodies 0).w = 0 := by rw [hm]; rfl
  have z1 : (m.bodies 1).w = 0 := by rw [hm]; rfl
  obtain ⟨P, sp, hP, -, hg⟩ := C62_longer_step_violated hs hk (by rw [i0, i1]; norm_num) (by rw [ht]; simp [bobTick]) (by rw [hF]; norm_num) (by rw [hc]; norm_num)
    (by rw [hc, hdt]; norm_num) (by rw [hF, hc]; show (1 : ℝ) = _; norm_num)
    (by
      rw [i0, i1, hF, hdt, hc]
      show (1 : ℝ) * (2 * 2 - 1) * (1 + 1) ≤ - -100 - (((m.tick t.free).bodies 1).w - ((m.tick t.free).bodies 0).w)
      rw [f0, f1, z0, z1]; norm_num)
  rw [hF, hdt, hc] at hP
  rw [hF, hdt] at hg
  have wa := sp.wa
  have wb := sp.wb
  rw [(ff _).i_inv, (seen_inertia m t _).2, hP] at wa wb
  refine ⟨m, t, _, hk, hF, hc, rfl, hdt, ?_, ?_, by rw [hg]; norm_num⟩
  · rw [wb]; show ((m.tick t.free).bodies 1).w + _ = (m.bodies 1).w + _; rw [f1]; norm_num
  · rw [wa]; show ((m.tick t.free).bodies 0).w - _ = (m.bodies 0).w - _; rw [f0]; norm_num

/-- A gear of ratio 1 and phase 0. -/
noncomputable def cog (maxBias : ℝ) : GearJoint ℝ :=
  { a := 0, b := 1, maxForce := 1, errorBias := 1 / 2, maxBias := maxBias, phase := 0, ratio := 1, ratio_inv := 1, iSum := 0, bias := 0, jAcc := 0 }

/-- Half of the angle between the discs, 1, is to be gone after a step of one second: the gear gives 1/4 to each. -/
example : Spun ((bobs 0 (.gear (cog 1))).tick (bobTick 1).free).bodies ((bobs 0 (.gear (cog 1))).tick (bobTick 1)).bodies 0 1 1 (1 / 4) := by
  obtain ⟨w0, w1, a0, a1, i0, i1⟩ := bob_free 0 1 one_pos (.gear (cog 1))
  obtain ⟨P, hP, sp, hg⟩ := C62_gear (bob_sole 1 one_pos (bobs 0 (.gear (cog 1))) rfl rfl) rfl (show (1 : ℝ) * 1 + 1 * 1 ≠ 0 by norm_num)
    (bob_ready 0 1 (.gear (cog 1))).2.2.2.1 (show (0 : ℝ) ≤ 1 by norm_num) (show (0 : ℝ) ≤ 1 by norm_num) (.inl rfl)
  have hP' : P = max (-(1 * 1)) (min ((max (-1) (min (-((1 - (1 / 2) ^ (1 : ℝ)) * ((((bobs 0 (.gear (cog 1))).tick (bobTick 1).free).bodies 1).a * 1 - (((bobs 0 (.gear (cog 1))).tick (bobTick 1).free).bodies 0).a - 0) / 1)) 1)
      - ((((bobs 0 (.gear (cog 1))).tick (bobTick 1).free).bodies 1).w * 1 - (((bobs 0 (.gear (cog 1))).tick (bobTick 1).free).bodies 0).w)) / (1 * 1 + 1 * 1)) (1 * 1)) := hP
  rw [w0, w1, a0, a1, Real.rpow_one] at hP'
  have : P = 1 / 4 := by rw [hP']; norm_num
  rw [this] at sp
  exact sp

/-- As a friction a gear stops discs that turn against each other with 2 within ten steps of a tenth of a second. -/
example (n : Nat) (h : 10 ≤ n) : ((bobRun 2 (1 / 10) (.gear (cog 0)) n).bodies 1).w * 1 - ((bobRun 2 (1 / 10) (.gear (cog 0)) n).bodies 0).w = 0 := by
  have S := bob_swinging 2 (1 / 10) (by norm_num) (.gear (cog 0)) rfl rfl
  refine (C62_gear_friction (j := cog 0) S rfl (by simp [cog]) (show (0 : ℝ) < 1 by norm_num) (show (0 : ℝ) ≤ 1 by norm_num) (show (0 : ℝ) < 1 by norm_num)
    (show (0 : ℝ) ≤ 1 by norm_num) rfl (.inl rfl) n).2.1 ?_
  show |(0 : ℝ) * 1 - 2| ≤ n * ((1 / 1 + 1 * 1) * (1 * (1 / 10)))
  have h' : (10 : ℝ) ≤ n := by exact_mod_cast h
  rw [abs_of_neg (by norm_num)]
  linarith

/-- Discs that are turned 1 beyond a limit: the limit gives 1/4 to each. -/
noncomputable def stopper : RotaryLimitJoint ℝ :=
  { a := 0, b := 1, maxForce := 1, errorBias := 1 / 2, maxBias := 1, min := 0, max := 1, iSum := 0, bias := 0, jAcc := 0 }

example : Spun ((bobs 0 (.rotaryLimit stopper)).tick (bobTick 1).free).bodies ((bobs 0 (.rotaryLimit stopper)).tick (bobTick 1)).bodies 0 1 1 (1 / 4) := by
  obtain ⟨w0, w1, a0, a1, i0, i1⟩ := bob_free 0 1 one_pos (.rotaryLimit stopper)
  obtain ⟨P, sp, -, -, -, hP⟩ := C62_limit (bob_sole 1 one_pos (bobs 0 (.rotaryLimit stopper)) rfl rfl) rfl (show (0 : ℝ) < 1 + 1 by norm_num)
    (bob_ready 0 1 (.rotaryLimit stopper)).2.2.2.1 (show (0 : ℝ) ≤ 1 by norm_num) (show (0 : ℝ) < 1 by norm_num)
    (by show (1 / 2 : ℝ) ^ (1 : ℝ) < 1; rw [Real.rpow_one]; norm_num) (show (0 : ℝ) ≤ 1 by norm_num) (.inl rfl)
  have hP' : (((bobs 0 (.rotaryLimit stopper)).tick (bobTick 1).free).bodies 1).a - (((bobs 0 (.rotaryLimit stopper)).tick (bobTick 1).free).bodies 0).a < 0 →
      P = max 0 (min ((max (-1) (min (-((1 - (1 / 2) ^ (1 : ℝ)) * ((((bobs 0 (.rotaryLimit stopper)).tick (bobTick 1).free).bodies 1).a - (((bobs 0 (.rotaryLimit stopper)).tick (bobTick 1).free).bodies 0).a - 0) / 1)) 1)
      - ((((bobs 0 (.rotaryLimit stopper)).tick (bobTick 1).free).bodies 1).w - (((bobs 0 (.rotaryLimit stopper)).tick (bobTick 1).free).bodies 0).w)) / (1 + 1)) (1 * 1)) := hP
  rw [w0, w1, a0, a1, Real.rpow_one] at hP'
  have : P = 1 / 4 := by rw [hP' (by norm_num)]; norm_num
  rw [this] at sp
  exact sp

/-- Discs that turned back 1 beyond a notch: the ratchet gives 1/4 to each. -/
noncomputable def pawl : RatchetJoint ℝ :=
  { a := 0, b := 1, maxForce := 1, errorBias := 1 / 2, maxBias := 1, angle := 0, phase := 0, ratchet := 1 / 2, iSum := 0, bias := 0, jAcc := 0 }

example : Spun ((bobs 0 (.ratchet pawl)).tick (bobTick 1).free).bodies ((bobs 0 (.ratchet pawl)).tick (bobTick 1)).bodies 0 1 1 (1 / 4) := by
  obtain ⟨w0, w1, a0, a1, i0, i1⟩ := bob_free 0 1 one_pos (.ratchet pawl)
  obtain ⟨P, sp, -, -, hP, -⟩ := C62_ratchet (bob_sole 1 one_pos (bobs 0 (.ratchet pawl)) rfl rfl) rfl (show (0 : ℝ) < 1 + 1 by norm_num)
    (bob_ready 0 1 (.ratchet pawl)).2.2.2.1 (show (0 : ℝ) ≤ 1 by norm_num) (show (0 : ℝ) < 1 by norm_num)
    (by show (1 / 2 : ℝ) ^ (1 : ℝ) < 1; rw [Real.rpow_one]; norm_num) (show (1 / 2 : ℝ) ≠ 0 by norm_num) (.inl rfl)
  have hP' : (0 : ℝ) < 1 / 2 → (((bobs 0 (.ratchet pawl)).tick (bobTick 1).free).bodies 1).a - (((bobs 0 (.ratchet pawl)).tick (bobTick 1).free).bodies 0).a < 0 →
      P = max 0 (min ((max (-1) (min (-((1 - (1 / 2) ^ (1 : ℝ)) * ((((bobs 0 (.ratchet pawl)).tick (bobTick 1).free).bodies 1).a - (((bobs 0 (.ratchet pawl)).tick (bobTick 1).free).bodies 0).a - 0) / 1)) 1)
      - ((((bobs 0 (.ratchet pawl)).tick (bobTick 1).free).bodies 1).w - (((bobs 0 (.ratchet pawl)).tick (bobTick 1).free).bodies 0).w)) / (1 + 1)) (1 * 1)) := hP
  rw [w0, w1, a0, a1, Real.rpow_one] at hP'
  have : P = 1 / 4 := by rw [hP' (by norm_num) (by norm_num)]; norm_num
  rw [this] at sp
  exact sp

/-- A pin of length 10 between the centres of the discs, which are 11 apart. -/
noncomputable def rod : PinJoint ℝ :=
  { a := 0, b := 1, maxForce := 1, errorBias := 1 / 2, maxBias := 1, anchorA := ⟨0, 0⟩, anchorB := ⟨0, 0⟩, dist := 10, r1 := ⟨0, 0⟩, r2 := ⟨0, 0⟩, n := ⟨0, 0⟩
    nMass := 0, jnAcc := 0, bias := 0 }

/-- It draws the discs towards each other with half the error per second. -/
example : ∃ n : Vec ℝ, n = ⟨1, 0⟩ ∧ ((gripVel ((bobs 0 (.pin rod)).tick (bobTick 1)).bodies 1 ⟨0, 0⟩).sub (gripVel ((bobs 0 (.pin rod)).tick (bobTick 1)).bodies 0 ⟨0, 0⟩)).dot n = -1 / 2 := by
  obtain ⟨ud, sv, hmv, hit, F⟩ := bob_ready 0 1 (.pin rod)
  have ff := free_frozen (bobs 0 (.pin rod)) (bobTick 1) (show (1 : ℝ) ≠ 0 by norm_num) (by simp [bobTick])
  have g0 := bob_grip 0 1 (.pin rod) 0 (.inl rfl)
  have g1 := bob_grip 0 1 (.pin rod) 1 (.inr rfl)
  have p0 : ((bobs 0 (.pin rod)).bodies 0).p = ⟨0, 0⟩ := rfl
  have p1 : ((bobs 0 (.pin rod)).bodies 1).p = ⟨11, 0⟩ := rfl
  have hne : grip ((bobs 0 (.pin rod)).seen (bobTick 1)) 0 ⟨0, 0⟩ ≠ grip ((bobs 0 (.pin rod)).seen (bobTick 1)) 1 ⟨0, 0⟩ := by
    rw [g0, g1, p0, p1]; simp
  obtain ⟨P, hP, -, -, h4⟩ := C62_pin (j := rod) (bob_sole 1 one_pos (bobs 0 (.pin rod)) rfl rfl) rfl sv hit (show (0 : ℝ) ≤ 1 by norm_num) (show (0 : ℝ) ≤ 1 by norm_num)
    (.inl rfl) hmv (ud _) (ud _) hne
  have hgap : gripGap ((bobs 0 (.pin rod)).tick (bobTick 1).free).bodies rod.a rod.b rod.anchorA rod.anchorB = ⟨11, 0⟩ := by
    show (grip _ 1 ⟨0, 0⟩).sub (grip _ 0 ⟨0, 0⟩) = _
    rw [(ff 0).grip, (ff 1).grip, g0, g1, p0, p1]; simp [Vec.sub]
  have hlen : (⟨11, 0⟩ : Vec ℝ).length = 11 := by
    have e : (⟨11, 0⟩ : Vec ℝ) = (⟨1, 0⟩ : Vec ℝ).mult 11 := by simp [Vec.mult]
    rw [e]; exact length_unit (by simp [Vec.dot]) (by norm_num)
  have hc0 := carried_pos (bob_carried 0 1 (.pin rod) 0 (.inl rfl))
  have hc1 := carried_pos (bob_carried 0 1 (.pin rod) 1 (.inr rfl))
  have q0 : (((bobs 0 (.pin rod)).tick (bobTick 1).free).bodies 0).p = ⟨0, 0⟩ := by
    rw [(ff 0).p, hc0]; simp [bobs, bob, Body.setTransform, Vec.add, Vec.mult]
  have q1 : (((bobs 0 (.pin rod)).tick (bobTick 1).free).bodies 1).p = ⟨11, 0⟩ := by
    rw [(ff 1).p, hc1]; simp [bobs, bob, Body.setTransform, Vec.add, Vec.mult]
  have ra : (grip ((bobs 0 (.pin rod)).tick (bobTick 1).free).bodies 0 ⟨0, 0⟩).sub (((bobs 0 (.pin rod)).tick (bobTick 1).free).bodies 0).p = ⟨0, 0⟩ := by
    rw [(ff 0).grip, g0, q0, p0]; simp [Vec.sub]
  have rb : (grip ((bobs 0 (.pin rod)).tick (bobTick 1).free).bodies 1 ⟨0, 0⟩).sub (((bobs 0 (.pin rod)).tick (bobTick 1).free).bodies 1).p = ⟨0, 0⟩ := by
    rw [(ff 1).grip, g1, q1, p1]; simp [Vec.sub]
  have v0 : (((bobs 0 (.pin rod)).tick (bobTick 1).free).bodies 0).v = ⟨0, 0⟩ := by
    rw [free_bodies _ _ (show (1 : ℝ) ≠ 0 by norm_num) (by simp [bobTick]), if_pos (by simp [bobTick])]
    obtain ⟨s1, -, s3, s4, -⟩ := seen_v (bobs 0 (.pin rod)) (bobTick 1) 0
    show (Body.updateVelocity _ _ ((1 : ℝ) ^ (1 : ℝ)) _).v = _
    rw [Real.one_rpow]
    exact ((updateVelocity_unforced _ _ _ (s3.trans (F 0 (.inl rfl)).1) (s4.trans (F 0 (.inl rfl)).2)).2.1 rfl).trans s1
  have v1 : (((bobs 0 (.pin rod)).tick (bobTick 1).free).bodies 1).v = ⟨0, 0⟩ := by
    rw [free_bodies _ _ (show (1 : ℝ) ≠ 0 by norm_num) (by simp [bobTick]), if_pos (by simp [bobTick])]
    obtain ⟨s1, -, s3, s4, -⟩ := seen_v (bobs 0 (.pin rod)) (bobTick 1) 1
    show (Body.updateVelocity _ _ ((1 : ℝ) ^ (1 : ℝ)) _).v = _
    rw [Real.one_rpow]
    exact ((updateVelocity_unforced _ _ _ (s3.trans (F 1 (.inr rfl)).1) (s4.trans (F 1 (.inr rfl)).2)).2.1 rfl).trans s1
  have hn : (⟨11, 0⟩ : Vec ℝ).mult (1 / (⟨11, 0⟩ : Vec ℝ).length) = ⟨1, 0⟩ := by rw [hlen]; simp [Vec.mult]
  dsimp only at hP h4
  rw [hgap, hn] at hP h4
  refine ⟨_, rfl, ?_⟩
  simp only [show rod.a = 0 from rfl, show rod.b = 1 from rfl, show rod.anchorA = ⟨0, 0⟩ from rfl, show rod.anchorB = ⟨0, 0⟩ from rfl] at hP h4
  have hv0 : gripVel ((bobs 0 (.pin rod)).tick (bobTick 1).free).bodies 0 ⟨0, 0⟩ = ⟨0, 0⟩ := by
    simp only [gripVel]; rw [ra, v0]; simp [Vec.add, Vec.mult, Vec.perp]
  have hv1 : gripVel ((bobs 0 (.pin rod)).tick (bobTick 1).free).bodies 1 ⟨0, 0⟩ = ⟨0, 0⟩ := by
    simp only [gripVel]; rw [rb, v1]; simp [Vec.add, Vec.mult, Vec.perp]
  have hK : yields ((bobs 0 (.pin rod)).tick (bobTick 1).free).bodies 0 1 ⟨0, 0⟩ ⟨0, 0⟩ ⟨1, 0⟩ = 2 := by
    simp only [yields, (ff _).m_inv, (seen_inertia _ _ _).1, Vec.cross]
    show (1 : ℝ) + _ + (1 + _) = 2
    norm_num
  rw [ra, rb, hv0, hv1, hK] at h4
  rw [ra, rb, hv0, hv1, hK, hlen, Con.goal] at hP
  have hP' : P = max (-(1 * 1)) (min ((max (-1) (min (-((1 - (1 / 2) ^ (1 : ℝ)) * (11 - 10) / 1)) 1) - ((⟨0, 0⟩ : Vec ℝ).sub ⟨0, 0⟩).dot ⟨1, 0⟩) / 2) (1 * 1)) := hP
  have : P = -1 / 4 := by
    rw [hP', Real.rpow_one]
    simp only [Vec.sub, Vec.dot]
    norm_num
  rw [h4, this]
  simp only [Vec.sub, Vec.dot]
  norm_num

/-- A pivot between the centres of the discs gets as far as its force allows. -/
noncomputable def hingePin : PivotJoint ℝ :=
  { a := 0, b := 1, maxForce := 1, errorBias := 1 / 2, maxBias := 100, anchorA := ⟨0, 0⟩, anchorB := ⟨0, 0⟩, r1 := ⟨0, 0⟩, r2 := ⟨0, 0⟩
    k := ⟨0, 0, 0, 0⟩, jAcc := ⟨0, 0⟩, bias := ⟨0, 0⟩ }

example : ∃ P needed : Vec ℝ, P = needed.clampLen (1 * 1) ∧ (((bobs 0 (.pivot hingePin)).tick (bobTick 1)).joints 0).getImpulse = P.length := by
  obtain ⟨ud, sv, hmv, hit, F⟩ := bob_ready 0 1 (.pivot hingePin)
  obtain ⟨X, P, -, h2, -, h4, -⟩ := C62_pivot (j := hingePin) (bob_sole 1 one_pos (bobs 0 (.pivot hingePin)) rfl rfl) rfl sv hit (show (0 : ℝ) ≤ 1 by norm_num) (.inl rfl) hmv
    (ud _) (ud _)
  exact ⟨P, X, h2, h4⟩

end CP
