import Verif.Proofs.Spring
import Verif.Proofs.Oscillate

/-! # Springs: many steps -/

namespace CP
open GoFloat

theorem step_unforced (s : Solver ℝ) (op : SolverOp ℝ) (x : Nat) (h : (s.bodies x).f = ⟨0, 0⟩ ∧ (s.bodies x).t = 0) :
    ((s.step op).bodies x).f = ⟨0, 0⟩ ∧ ((s.step op).bodies x).t = 0 := by
  cases hi : op.integrated? with
  | none =>
    have hff : ∀ {Q : Kick → Prop} {h h' : Bodies ℝ}, Kicks Q h h' → (h' x).f = (h x).f ∧ (h' x).t = (h x).t := by
      intro Q h h' k
      induction k with
      | refl => exact ⟨rfl, rfl⟩
      | step _ _ hd ih => exact ⟨(hd.f x).1.trans ih.1, (hd.f x).2.trans ih.2⟩
    obtain ⟨h1, h2⟩ := hff (step_kicks s op hi)
    rw [h1, h2]; exact h
  | some k =>
    cases op with
    | integrate k g d dt =>
      simp only [Solver.step, Bodies.set]
      by_cases e : x = k
      · rw [if_pos e, ← e]
        simp only [Body.updateVelocity]
        split
        · exact h
        · exact ⟨rfl, rfl⟩
      · rw [if_neg e]; exact h
    | _ => cases hi

theorem tick_unforced (m : Motion ℝ) (t : Tick ℝ) (x : Nat) (h : (m.bodies x).f = ⟨0, 0⟩ ∧ (m.bodies x).t = 0) :
    ((m.tick t).bodies x).f = ⟨0, 0⟩ ∧ ((m.tick t).bodies x).t = 0 := by
  by_cases hdt : t.dt = 0
  · simp only [Motion.tick, if_pos hdt]; exact h
  · rw [tick_bodies m t hdt]
    obtain ⟨-, -, h3, h4, -⟩ := seen_v m t x
    have : ∀ (ops : List (SolverOp ℝ)) (s : Solver ℝ), (s.bodies x).f = ⟨0, 0⟩ ∧ (s.bodies x).t = 0 → ((s.run ops).bodies x).f = ⟨0, 0⟩ ∧ ((s.run ops).bodies x).t = 0 := by
      intro ops
      induction ops with
      | nil => exact fun _ h => h
      | cons op ops ih => exact fun s h => ih (s.step op) (step_unforced s op x h)
    refine this _ _ ?_
    simp only [Motion.begun]
    rw [h3, h4]; exact h

/-- What stays in a sequence of steps. -/
structure Swinging.At (ms : Nat → Motion ℝ) (a b : Nat) (n : Nat) : Prop where
  f : ∀ x, x = a ∨ x = b → ((ms n).bodies x).f = ⟨0, 0⟩ ∧ ((ms n).bodies x).t = 0
  bias : ∀ x, x = a ∨ x = b → ((ms n).bodies x).v_bias = ⟨0, 0⟩ ∧ ((ms n).bodies x).w_bias = 0
  inertia : ∀ x, ((ms n).bodies x).m_inv = ((ms 0).bodies x).m_inv ∧ ((ms n).bodies x).i_inv = ((ms 0).bodies x).i_inv
  cog : ∀ x, ((ms n).bodies x).cog = ((ms 0).bodies x).cog

theorem seen_cog (m : Motion ℝ) (t : Tick ℝ) (x : Nat) : (m.seen t x).cog = (m.bodies x).cog := by
  have key : ∀ (l : List Nat) (h : Bodies ℝ), (Motion.move h t.dt l x).cog = (h x).cog := by
    intro l
    induction l with
    | nil => exact fun _ => rfl
    | cons k l ih =>
      intro h
      have : Motion.move h t.dt (k :: l) = Motion.move (h.set k ((h k).updatePosition t.dt)) t.dt l := rfl
      rw [this, ih]
      simp only [Bodies.set]
      by_cases e : x = k
      · rw [if_pos e, e]; rfl
      · rw [if_neg e]
  exact key _ _

theorem Swinging.at {ms : Nat → Motion ℝ} {ts : Nat → Tick ℝ} {dt : ℝ} {k a b : Nat} (S : Swinging ms ts dt k a b)
    (hc : ∀ n, ((ms n).joints k).con.a = a ∧ ((ms n).joints k).con.b = b) : ∀ n, Swinging.At ms a b n
  | 0 => ⟨fun x hx => ⟨(S.still x hx).1, (S.still x hx).2.1⟩, fun x hx => ⟨(S.still x hx).2.2.1, (S.still x hx).2.2.2⟩, fun _ => ⟨rfl, rfl⟩, fun _ => rfl⟩
  | n + 1 => by
    have ih := S.at hc n
    have hdt := (S.sole n).pos.ne'
    refine ⟨fun x hx => ?_, fun x hx => ?_, fun x => ?_, fun x => ?_⟩
    · rw [S.step n]; exact tick_unforced _ _ _ (ih.f x hx)
    · rw [S.step n]
      refine untouched_bias _ _ _ hdt ((S.sole n).untouched x ?_) (S.carried n x hx)
      rw [(hc n).1, (hc n).2]; exact hx
    · have h1 := tick_frozen (ms n) (ts n) hdt x
      have h2 := seen_inertia (ms n) (ts n) x
      rw [S.step n, h1.m_inv, h1.i_inv, h2.1, h2.2]; exact ih.inertia x
    · have h1 := tick_frozen (ms n) (ts n) hdt x
      rw [S.step n, h1.cog, seen_cog]; exact ih.cog x

theorem joint_con_tick (m : Motion ℝ) (t : Tick ℝ) (k : Nat) : ((m.tick t).joints k).con = (m.joints k).con := by
  by_cases hdt : t.dt = 0
  · simp only [Motion.tick, if_pos hdt]
  · have S0 : Stays m (m.seen t) { bodies := m.seen t, joints := m.joints, arbs := t.contact } := ⟨fun x => .refl _, fun i => rfl⟩
    have := (S0.run (Solver.stepProgram t.arbs t.joints t.dyn t.iterations t.dt m.currDt t.slop t.collisionBias t.damping t.gravity)).con k
    simp only [Motion.tick, if_neg hdt]
    exact this

theorem Swinging.con {ms : Nat → Motion ℝ} {ts : Nat → Tick ℝ} {dt : ℝ} {k a b : Nat} (S : Swinging ms ts dt k a b) :
    ∀ n, ((ms n).joints k).con = ((ms 0).joints k).con
  | 0 => rfl
  | n + 1 => by rw [S.step n, joint_con_tick]; exact S.con n

theorem rotary_osc {ms : Nat → Motion ℝ} {ts : Nat → Tick ℝ} {dt : ℝ} {k : Nat} {j : DampedRotarySpring ℝ} (S : Swinging ms ts dt k j.a j.b)
    (hj : (ms 0).joints k = .rotarySpring j) (htq : j.torque = DampedRotarySpring.defaultTorque j.restAngle j.stiffness)
    (hi : 0 < ((ms 0).bodies j.a).i_inv + ((ms 0).bodies j.b).i_inv) :
    Osc (j.stiffness * (((ms 0).bodies j.a).i_inv + ((ms 0).bodies j.b).i_inv) * dt ^ 2)
      (Real.exp (-(j.damping * (((ms 0).bodies j.a).i_inv + ((ms 0).bodies j.b).i_inv) * dt)))
      (fun n => ((ms n).bodies j.a).a - ((ms n).bodies j.b).a - j.restAngle) (fun n => (((ms n).bodies j.a).w - ((ms n).bodies j.b).w) * dt) := by
  have hcon : ∀ n, ((ms n).joints k).con.a = j.a ∧ ((ms n).joints k).con.b = j.b := by
    intro n; rw [S.con n, hj]; exact ⟨rfl, rfl⟩
  have hjs : ∀ n, ∃ jn : DampedRotarySpring ℝ, (ms n).joints k = .rotarySpring jn ∧ jn.a = j.a ∧ jn.b = j.b ∧ jn.torque = j.torque ∧ jn.damping = j.damping := by
    intro n
    induction n with
    | zero => exact ⟨j, hj, rfl, rfl, rfl, rfl⟩
    | succ n ih =>
      obtain ⟨jn, h1, h2, h3, h4, h5⟩ := ih
      have A := S.at hcon n
      have hu : (ts n).Unforced (ms n) k := ⟨S.damping n, fun x hx => A.f x (by rw [(hcon n).1, (hcon n).2] at hx; exact hx)⟩
      obtain ⟨-, -, tg, e⟩ := rotary_tick (S.sole n) h1 hu (by rw [h2, h3, (A.inertia _).2, (A.inertia _).2]; exact hi) (S.iterations n)
      rw [← S.step n] at e
      exact ⟨_, e, h2, h3, h4, h5⟩
  intro n
  obtain ⟨jn, h1, h2, h3, h4, h5⟩ := hjs n
  have A := S.at hcon n
  have hu : (ts n).Unforced (ms n) k := ⟨S.damping n, fun x hx => A.f x (by rw [(hcon n).1, (hcon n).2] at hx; exact hx)⟩
  obtain ⟨r1, r2, -⟩ := rotary_tick (S.sole n) h1 hu (by rw [h2, h3, (A.inertia _).2, (A.inertia _).2]; exact hi) (S.iterations n)
  rw [← S.step n, h2, h3, h4, h5, (A.inertia _).2, (A.inertia _).2, S.length n] at r1 r2
  have ca := carried_angle (S.carried n j.a (.inl rfl))
  have cb := carried_angle (S.carried n j.b (.inr rfl))
  rw [(A.bias _ (.inl rfl)).2, add_zero, S.length n] at ca
  rw [(A.bias _ (.inr rfl)).2, add_zero, S.length n] at cb
  have fa := (tick_frozen (ms n) (ts n) (S.sole n).pos.ne' j.a).a
  have fb := (tick_frozen (ms n) (ts n) (S.sole n).pos.ne' j.b).a
  rw [← S.step n, ca] at fa
  rw [← S.step n, cb] at fb
  rw [ca, cb] at r1 r2
  obtain ⟨K, hK⟩ : ∃ K, K = ((ms 0).bodies j.a).i_inv + ((ms 0).bodies j.b).i_inv := ⟨_, rfl⟩
  have hKne : K ≠ 0 := by rw [hK]; exact hi.ne'
  have hq : -j.damping * dt * (((ms 0).bodies j.a).i_inv + ((ms 0).bodies j.b).i_inv) = -(j.damping * (((ms 0).bodies j.a).i_inv + ((ms 0).bodies j.b).i_inv) * dt) := by ring
  rw [hq, htq, DampedRotarySpring.defaultTorque] at r1 r2
  obtain ⟨q, hq⟩ : ∃ q, q = Real.exp (-(j.damping * (((ms 0).bodies j.a).i_inv + ((ms 0).bodies j.b).i_inv) * dt)) := ⟨_, rfl⟩
  rw [← hq, ← hK] at r1 r2
  rw [← hq, ← hK]
  simp only [springStep, Prod.mk.injEq]
  refine ⟨by rw [fa, fb]; ring, ?_⟩
  rw [r1, r2]
  generalize (ms n).bodies j.a = A at *
  generalize (ms n).bodies j.b = B at *
  obtain ⟨ia, hia⟩ : ∃ ia, ia = ((ms 0).bodies j.a).i_inv := ⟨_, rfl⟩
  obtain ⟨ib, hib⟩ : ∃ ib, ib = ((ms 0).bodies j.b).i_inv := ⟨_, rfl⟩
  rw [← hia, ← hib] at hK ⊢
  obtain ⟨X, hX⟩ : ∃ X, X = (A.w - B.w - q * (A.w - B.w - K * ((A.a + A.w * dt - (B.a + B.w * dt) - j.restAngle) * j.stiffness * dt))) := ⟨_, rfl⟩
  rw [← hX]
  have e : A.w - ia * (X / K) - (B.w + ib * (X / K)) = A.w - B.w - X := by
    have : K * (X / K) = X := by field_simp
    rw [hK] at this
    rw [hK]
    linear_combination -this
  rw [e, hX]
  ring

end CP
