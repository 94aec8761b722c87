import Verif.Proofs.Correct2

/-! # Bias velocities of untouched bodies; many steps -/

namespace CP
open GoFloat

/-- A solver action that concerns no arbiter on body `x` leaves the bias velocities of `x`. -/
theorem step_bias_of (s : Solver ℝ) (op : SolverOp ℝ) (x : Nat) (h : ∀ i, op.arb? = some i → x ≠ (s.arbs i).a ∧ x ≠ (s.arbs i).b) :
    ((s.step op).bodies x).v_bias = (s.bodies x).v_bias ∧ ((s.step op).bodies x).w_bias = (s.bodies x).w_bias := by
  cases ha : op.arb? with
  | none =>
    have := run_bias [op] s (by intro o ho; rw [List.mem_singleton.1 ho]; exact ha)
    exact ⟨this.eq x, this.eqw x⟩
  | some i =>
    have hi : op.integrated? = none := by cases op <;> simp_all [SolverOp.arb?, SolverOp.integrated?]
    have hj : op.joint? = none := by cases op <;> simp_all [SolverOp.arb?, SolverOp.joint?]
    have := run_apart x [op] s (by intro o ho; rw [List.mem_singleton.1 ho]; exact hi)
      (by intro o ho k hk; rw [List.mem_singleton.1 ho, hj] at hk; cases hk)
      (by intro o ho k hk; rw [List.mem_singleton.1 ho] at hk; exact h k hk)
    have e : (s.step op).bodies x = s.bodies x := this
    rw [e]
    exact ⟨rfl, rfl⟩

theorem run_bias_of (ops : List (SolverOp ℝ)) (x : Nat) : ∀ s : Solver ℝ,
    (∀ op ∈ ops, ∀ i, op.arb? = some i → x ≠ (s.arbs i).a ∧ x ≠ (s.arbs i).b) →
    ((s.run ops).bodies x).v_bias = (s.bodies x).v_bias ∧ ((s.run ops).bodies x).w_bias = (s.bodies x).w_bias := by
  induction ops with
  | nil => exact fun s _ => ⟨rfl, rfl⟩
  | cons op ops ih =>
    intro s h
    obtain ⟨-, c2⟩ := step_con s op
    obtain ⟨h1, h2⟩ := ih (s.step op) (fun o ho i hi => by
      rw [(c2 i).1, (c2 i).2]; exact h o (List.mem_cons_of_mem _ ho) i hi)
    obtain ⟨k1, k2⟩ := step_bias_of s op x (h op List.mem_cons_self)
    exact ⟨h1.trans k1, h2.trans k2⟩

theorem program_arb (t : Tick ℝ) (prev : ℝ) :
    ∀ op ∈ Solver.stepProgram t.arbs t.joints t.dyn t.iterations t.dt prev t.slop t.collisionBias t.damping t.gravity,
      ∀ i, op.arb? = some i → i ∈ t.arbs := by
  intro op hop i hi
  rw [program_split] at hop
  rcases List.mem_append.1 hop with h | h
  · exact (preOps_ops t op h).2.2 i hi
  · rcases List.mem_append.1 h with h | h
    · obtain ⟨k, _, rfl⟩ := List.mem_map.1 h
      cases hi
    · exact (postOps_ops t prev op h).2.2 i hi

theorem move_bias (dt : ℝ) (l : List Nat) (x : Nat) : ∀ h : Bodies ℝ,
    (x ∈ l ∨ ((h x).v_bias = ⟨0, 0⟩ ∧ (h x).w_bias = 0)) → (Motion.move h dt l x).v_bias = ⟨0, 0⟩ ∧ (Motion.move h dt l x).w_bias = 0 := by
  induction l with
  | nil =>
    rintro h (hx | hx)
    · cases hx
    · exact hx
  | cons k l ih =>
    intro h hx
    refine ih (h.set k ((h k).updatePosition dt)) ?_
    by_cases e : x = k
    · subst e
      exact .inr (by simp [Bodies.set, Body.updatePosition, Body.setTransform, Body.zeroV])
    · rcases hx with hx | hx
      · rcases List.mem_cons.1 hx with hx | hx
        · exact absurd hx e
        · exact .inl hx
      · refine .inr ?_
        simp only [Bodies.set, if_neg e]
        exact hx

/-- **Untouched bodies** have no bias velocities after a step. -/
theorem untouched_bias (m : Motion ℝ) (t : Tick ℝ) (x : Nat) (hdt : t.dt ≠ 0) (hu : t.Untouched x) (hc : t.Carries m.bodies x) :
    ((m.tick t).bodies x).v_bias = ⟨0, 0⟩ ∧ ((m.tick t).bodies x).w_bias = 0 := by
  obtain ⟨s0, hs0⟩ : ∃ s0 : Solver ℝ, s0 = { bodies := m.seen t, joints := m.joints, arbs := t.contact } := ⟨_, rfl⟩
  have h1 := run_bias_of (Solver.stepProgram t.arbs t.joints t.dyn t.iterations t.dt m.currDt t.slop t.collisionBias t.damping t.gravity) x s0
    (fun op ho i hi => by rw [hs0]; exact hu i (program_arb t _ op ho i hi))
  have h2 := move_bias t.dt t.movers x m.bodies (hc.2.imp id fun h => ⟨h.2.2.1, h.2.2.2⟩)
  have e : (m.tick t).bodies = (s0.run (Solver.stepProgram t.arbs t.joints t.dyn t.iterations t.dt m.currDt t.slop t.collisionBias t.damping t.gravity)).bodies := by
    simp only [Motion.tick, if_neg hdt, hs0]
    rfl
  rw [e, h1.1, h1.2, hs0]
  exact h2

/-- An error corrected again and again: explicit bound. -/
theorem leftover_iterate (r c e : ℝ) (h0 : 0 ≤ r) (h1 : r ≤ 1) (hc : 0 < c) (he : e ≠ 0) (n : Nat) :
    |(leftover r c)^[n] e| ≤ (max r (1 - c / |e|)) ^ n * |e| := by
  have hE : 0 < |e| := abs_pos.2 he
  obtain ⟨ρ, hρ⟩ : ∃ ρ, ρ = max r (1 - c / |e|) := ⟨_, rfl⟩
  have hρ0 : 0 ≤ ρ := by rw [hρ]; exact le_max_of_le_left h0
  have hρ1 : ρ ≤ 1 := by
    rw [hρ]; exact max_le h1 (by have : 0 < c / |e| := div_pos hc hE; linarith)
  have pos : ∀ x, 0 ≤ x → x ≤ |e| → 0 ≤ leftover r c x ∧ leftover r c x ≤ ρ * x := by
    intro x hx hxe
    have hy : 0 ≤ (1 - r) * x := mul_nonneg (by linarith) hx
    have hm : 0 ≤ min ((1 - r) * x) c := le_min hy hc.le
    rw [leftover, max_eq_right (by linarith)]
    have hml : min ((1 - r) * x) c ≤ (1 - r) * x := min_le_left _ _
    refine ⟨by nlinarith [mul_nonneg h0 hx], ?_⟩
    have r1 : r * x ≤ ρ * x := mul_le_mul_of_nonneg_right (by rw [hρ]; exact le_max_left _ _) hx
    have r2 : (1 - c / |e|) * x ≤ ρ * x := mul_le_mul_of_nonneg_right (by rw [hρ]; exact le_max_right _ _) hx
    have r3 : c / |e| * x ≤ c := by
      rw [div_mul_eq_mul_div, div_le_iff₀ hE]
      exact mul_le_mul_of_nonneg_left hxe hc.le
    rcases min_choice ((1 - r) * x) c with q | q <;> rw [q] <;> linarith
  have all : ∀ x, |x| ≤ |e| → |leftover r c x| ≤ ρ * |x| := by
    intro x hx
    rcases le_total 0 x with h | h
    · rw [abs_of_nonneg h] at hx ⊢
      obtain ⟨p1, p2⟩ := pos x h hx
      rw [abs_of_nonneg p1]; exact p2
    · rw [abs_of_nonpos h] at hx ⊢
      obtain ⟨p1, p2⟩ := pos (-x) (by linarith) hx
      rw [leftover_neg r c x hc.le] at p1 p2
      rw [abs_of_nonpos (by linarith)]; exact p2
  rw [← hρ]
  induction n with
  | zero => simp
  | succ n ih =>
    rw [Function.iterate_succ_apply', pow_succ]
    have hle : |(leftover r c)^[n] e| ≤ |e| := ih.trans (mul_le_of_le_one_left hE.le (pow_le_one₀ hρ0 hρ1))
    calc _ ≤ ρ * |(leftover r c)^[n] e| := all _ hle
      _ ≤ ρ * (ρ ^ n * |e|) := mul_le_mul_of_nonneg_left ih hρ0
      _ = _ := by ring

end CP
