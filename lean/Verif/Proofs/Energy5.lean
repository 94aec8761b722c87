import Verif.Proofs.Energy4

/-! # A whole step does no work: the step -/

namespace CP
open GoFloat Finset

theorem Body.Undriven.updateVelocity {b : Body ℝ} (u : b.Undriven) (hm : 0 < b.m_inv) (g : Vec ℝ) (d dt : ℝ) : (b.updateVelocity g d dt).Undriven := by
  simp only [Body.updateVelocity]
  split
  · exact u
  · refine ⟨?_, ?_⟩
    · rcases u.mass with h | ⟨h, -⟩
      · exact .inl h
      · exact absurd h hm.ne'
    · rcases u.moment with h | ⟨h1, h2⟩
      · exact .inl h
      · refine .inr ⟨h1, ?_⟩
        simp only [h1, h2]; ring

theorem Body.Undriven.updatePosition {b : Body ℝ} (u : b.Undriven) (dt : ℝ) : (b.updatePosition dt).Undriven := ⟨u.mass, u.moment⟩

theorem kineticEnergy_updatePosition (b : Body ℝ) (dt : ℝ) : (b.updatePosition dt).kineticEnergy = b.kineticEnergy := rfl

theorem AllUndriven.seen {S : Finset Nat} {m : Motion ℝ} {t : Tick ℝ} (hu : AllUndriven S m.bodies) (hn : t.movers.Nodup) : AllUndriven S (m.seen t) := by
  intro k hk
  simp only [Motion.seen, move_apply _ _ hn]
  split
  · exact (hu k hk).updatePosition _
  · exact hu k hk

theorem energy_seen (S : Finset Nat) (m : Motion ℝ) (t : Tick ℝ) (hn : t.movers.Nodup) : energy S (m.seen t) = energy S m.bodies := by
  refine sum_congr rfl fun k _ => ?_
  simp only [Motion.seen, move_apply _ _ hn]
  split <;> rfl

/-- What the step integrates its velocities to. -/
theorem free_bodies (m : Motion ℝ) (t : Tick ℝ) (hdt : t.dt ≠ 0) (hn : t.dyn.Nodup) (k : Nat) :
    (m.tick t.free).bodies k = if k ∈ t.dyn then (m.seen t k).updateVelocity t.gravity (t.damping ^ t.dt) t.dt else m.seen t k := by
  have e : (m.tick t.free).bodies = ((startOf m t).run (t.dyn.map fun k => SolverOp.integrate k t.gravity (t.damping ^ t.dt) t.dt)).bodies := by
    have hdt' : t.free.dt ≠ 0 := hdt
    simp only [Motion.tick, if_neg hdt', program_split, startOf]
    simp only [preOps, postOps, Tick.free, List.map_nil, List.nil_append, List.append_nil, List.flatten_replicate_nil]
  rw [e]
  exact (integrate_apply t.gravity (t.damping ^ t.dt) t.dt t.dyn hn (startOf m t)).1 k

theorem jointPre_con (h : Bodies ℝ) (j : Joint ℝ) (dt : ℝ) : (j.preStep h dt).2.con = j.con := by cases j <;> rfl

/-- `n` passes of the solver. -/
noncomputable def passes (t : Tick ℝ) (n : Nat) : List (SolverOp ℝ) :=
  (List.replicate n (t.arbs.map (fun k => SolverOp.arbApply k) ++ t.joints.map (fun k => SolverOp.jointApply k t.dt))).flatten

theorem passes_apply (t : Tick ℝ) (n : Nat) : ∀ op ∈ passes t n, IsApply t.arbs t.joints t.dt op := by
  intro op ho
  obtain ⟨l, hl, ho⟩ := List.mem_flatten.mp ho
  obtain ⟨-, rfl⟩ := List.mem_replicate.mp hl
  rcases List.mem_append.mp ho with h | h <;> obtain ⟨k, hk, rfl⟩ := List.mem_map.mp h
  · exact .inl ⟨k, hk, rfl⟩
  · exact .inr ⟨k, hk, rfl⟩

theorem passes_add (t : Tick ℝ) (n k : Nat) : passes t (n + k) = passes t n ++ passes t k := by
  simp only [passes, List.replicate_add, List.flatten_append]

/-- The state from which a quiet step works. -/
theorem quiet_working {S : Finset Nat} {m : Motion ℝ} {t : Tick ℝ} (q : Quiet S m t) : ∃ s2 : Solver ℝ, (∀ k, s2.bodies k = (m.tick t.free).bodies k) ∧
    Working S t.arbs t.joints (m.seen t) t.dt s2 ∧ (∀ n, (m.tick { t with iterations := n }).bodies = (s2.run (passes t n)).bodies) ∧
    (∀ pre post k, passes t t.iterations = pre ++ .jointApply k t.dt :: post → (s2.joints k).isPivot →
      ((s2.run (pre ++ [.jointApply k t.dt])).joints k).getImpulse + 1 / 10 ^ 15 ≤ (s2.joints k).con.maxForce * t.dt) := by
  have hdt := q.pos.ne'
  obtain ⟨p1, p2, p3⟩ := pre_arbs t.dt t.slop (1 - t.collisionBias ^ t.dt) t.arbs q.arbsOnce (startOf m t)
  obtain ⟨s', hs'⟩ : ∃ s', s' = (startOf m t).run (t.arbs.map fun k => .arbPreStep k t.dt t.slop (1 - t.collisionBias ^ t.dt)) := ⟨_, rfl⟩
  rw [← hs'] at p1 p2 p3
  have b0 : (startOf m t).bodies = m.seen t := rfl
  have j0 : (startOf m t).joints = m.joints := rfl
  have a0 : (startOf m t).arbs = t.contact := rfl
  obtain ⟨q1, q2, q3⟩ := pre_joints t.dt t.joints q.jointsOnce s' (fun k hk => by
    rw [p1, p2, b0, j0]
    exact Joint.hinders_pre (q.still k hk).hinders _ _)
  have e1 : (startOf m t).run (preOps t) = s'.run (t.joints.map fun k => .jointPreStep k t.dt) := by
    rw [preOps, solver_run_append, hs']
  obtain ⟨s1, hs1⟩ : ∃ s1, s1 = s'.run (t.joints.map fun k => .jointPreStep k t.dt) := ⟨_, rfl⟩
  rw [← hs1] at q1 q2 q3 e1
  obtain ⟨i1, i2, i3⟩ := integrate_apply t.gravity (t.damping ^ t.dt) t.dt t.dyn q.dyn s1
  obtain ⟨s2, hs2⟩ : ∃ s2, s2 = s1.run (t.dyn.map fun k => SolverOp.integrate k t.gravity (t.damping ^ t.dt) t.dt) := ⟨_, rfl⟩
  rw [← hs2] at i1 i2 i3
  have B2 : ∀ k, s2.bodies k = (m.tick t.free).bodies k := by
    intro k
    rw [i1 k, free_bodies m t hdt q.dyn k, q1, p1, b0]
  have fz : ∀ k, Frozen (m.seen t k) (s2.bodies k) := by
    intro k
    rw [B2, free_bodies m t hdt q.dyn k]
    split
    · exact updateVelocity_frozen _ _ _ _
    · exact .refl _
  have u2 : AllUndriven S s2.bodies := by
    intro k hk
    rw [B2, free_bodies m t hdt q.dyn k]
    have us := (AllUndriven.seen q.undriven q.movers) k hk
    split
    · next hd =>
      refine us.updateVelocity ?_ _ _ _
      have := q.finite k hk hd
      simp only [Motion.seen, move_apply _ _ q.movers]
      split <;> exact this
    · exact us
  have A2 : ∀ k ∈ t.arbs, s2.arbs k = (t.contact k).preStep (m.seen t) t.dt t.slop (1 - t.collisionBias ^ t.dt) := by
    intro k hk
    rw [i3, q2, p3 k, if_pos hk, a0, b0]
  have J2 : ∀ k ∈ t.joints, s2.joints k = ((m.joints k).preStep (m.seen t) t.dt).2 := by
    intro k hk
    rw [i2, q3 k, if_pos hk, p1, p2, b0, j0]
  have W2 : Working S t.arbs t.joints (m.seen t) t.dt s2 := by
    refine ⟨fz, u2, fun k hk => ?_, fun k hk => ?_⟩
    · rw [A2 k hk]
      obtain ⟨h1, h2⟩ := q.smooth k hk
      obtain ⟨x, -, z⟩ := h1.tame h2 t.dt t.slop (1 - t.collisionBias ^ t.dt)
      exact ⟨x, z⟩
    · rw [J2 k hk, jointPre_con]
      have h := q.still k hk
      exact ⟨h.joins, (h.tame q.pos.le).1, mul_nonneg h.maxForce q.pos.le⟩
  obtain ⟨cf, hcf⟩ : ∃ cf : ℝ, cf = if m.currDt ≠ 0 then t.dt / m.currDt else 0 := ⟨_, rfl⟩
  -- the cached impulses are none
  have ca : ∀ l : List Nat, (∀ k ∈ l, k ∈ t.arbs) → s2.run (l.map fun k => .arbCached k cf) = s2 := by
    intro l
    induction l with
    | nil => exact fun _ => rfl
    | cons x l ih =>
      intro hl
      have e : s2.step (.arbCached x cf) = s2 := by
        have hx := hl x List.mem_cons_self
        obtain ⟨h1, h2⟩ := q.smooth x hx
        have := cached_calm s2.bodies (s2.arbs x) cf (by rw [A2 x hx]; exact (h1.tame h2 _ _ _).2.1)
        simp only [Solver.step, this]
      show (s2.step (.arbCached x cf)).run _ = s2
      rw [e]
      exact ih fun k hk => hl k (List.mem_cons_of_mem _ hk)
  have cj : ∀ l : List Nat, (∀ k ∈ l, k ∈ t.joints) → s2.run (l.map fun k => .jointCached k cf) = s2 := by
    intro l
    induction l with
    | nil => exact fun _ => rfl
    | cons x l ih =>
      intro hl
      have e : s2.step (.jointCached x cf) = s2 := by
        have hx := hl x List.mem_cons_self
        have := cached_idle s2.bodies (s2.joints x) cf (by rw [J2 x hx]; exact ((q.still x hx).tame q.pos.le).2)
        simp only [Solver.step, Solver.setJoint, this]
        have : (fun i => if i = x then s2.joints x else s2.joints i) = s2.joints := by
          funext i; by_cases h : i = x <;> simp [h]
        rw [this]
      show (s2.step (.jointCached x cf)).run _ = s2
      rw [e]
      exact ih fun k hk => hl k (List.mem_cons_of_mem _ hk)
  have prog : ∀ n, Solver.stepProgram t.arbs t.joints t.dyn n t.dt m.currDt t.slop t.collisionBias t.damping t.gravity =
      preOps t ++ (t.dyn.map (fun k => SolverOp.integrate k t.gravity (t.damping ^ t.dt) t.dt) ++ (t.arbs.map (fun k => SolverOp.arbCached k cf) ++
        (t.joints.map (fun k => SolverOp.jointCached k cf) ++ passes t n))) := by
    intro n
    have := program_split { t with iterations := n } m.currDt
    rw [hcf]
    exact this
  have R : ∀ ops, (startOf m t).run (preOps t ++ (t.dyn.map (fun k => SolverOp.integrate k t.gravity (t.damping ^ t.dt) t.dt) ++ (t.arbs.map (fun k => SolverOp.arbCached k cf) ++
        (t.joints.map (fun k => SolverOp.jointCached k cf) ++ ops)))) = s2.run ops := by
    intro ops
    rw [solver_run_append, solver_run_append, solver_run_append, solver_run_append, e1, ← hs2, ca _ (fun _ h => h), cj _ (fun _ h => h)]
  refine ⟨s2, B2, W2, fun n => ?_, ?_⟩
  · simp only [Motion.tick, if_neg hdt, prog]
    exact congrArg Solver.bodies (R (passes t n))
  · intro pre post k ek hp
    have hk : k ∈ t.joints := by
      rcases passes_apply t t.iterations (.jointApply k t.dt) (by rw [ek]; exact List.mem_append_right _ List.mem_cons_self) with ⟨i, _, e⟩ | ⟨i, hi, e⟩
      · cases e
      · cases e; exact hi
    have hp' : (m.joints k).isPivot := by
      rw [J2 k hk] at hp
      exact (jointPre_pivot _ _ _).1 hp
    have hc : (s2.joints k).con = (m.joints k).con := by rw [J2 k hk, jointPre_con]
    have := q.hold (preOps t ++ (t.dyn.map (fun k => SolverOp.integrate k t.gravity (t.damping ^ t.dt) t.dt) ++ (t.arbs.map (fun k => SolverOp.arbCached k cf) ++
        (t.joints.map (fun k => SolverOp.jointCached k cf) ++ pre)))) post k (by rw [prog, ek]; simp only [List.append_assoc]) hp'
    rw [hc]
    have hr := R (pre ++ [.jointApply k t.dt])
    simp only [List.append_assoc] at this hr
    rw [show ({ bodies := m.seen t, joints := m.joints, arbs := t.contact } : Solver ℝ) = startOf m t from rfl, hr] at this
    exact this

/-- Further passes add no energy. -/
theorem passes_energy {S : Finset Nat} {m : Motion ℝ} {t : Tick ℝ} (q : Quiet S m t) {n k : Nat} (hnk : n ≤ k) (hk : k ≤ t.iterations) :
    energy S (m.tick { t with iterations := k }).bodies ≤ energy S (m.tick { t with iterations := n }).bodies := by
  obtain ⟨s2, -, W, B, H⟩ := quiet_working q
  obtain ⟨d, rfl⟩ := Nat.exists_eq_add_of_le hnk
  obtain ⟨d', hd'⟩ := Nat.exists_eq_add_of_le hk
  rw [B, B, passes_add, solver_run_append]
  have hall : passes t t.iterations = passes t n ++ (passes t d ++ passes t d') := by
    rw [hd', passes_add, passes_add, List.append_assoc]
  rw [hall] at H
  obtain ⟨W1, -⟩ := W.run (passes t n) (passes_apply t n) (fun pre post k e hp => H pre (post ++ (passes t d ++ passes t d')) k (by rw [e]; simp) hp)
  obtain ⟨-, e⟩ := W1.run (passes t d) (passes_apply t d) (by
    intro pre post k e hp
    have hp' : (s2.joints k).isPivot := (run_pivot _ _ _).1 hp
    have := H (passes t n ++ pre) (post ++ passes t d') k (by rw [e]; simp) hp'
    rw [List.append_assoc, solver_run_append] at this
    rw [(run_con s2 (passes t n)).1 k]
    exact this)
  exact e

theorem step_energy {S : Finset Nat} {m : Motion ℝ} {t : Tick ℝ} (q : Quiet S m t) : energy S (m.tick t).bodies ≤ energy S (m.tick t.free).bodies := by
  obtain ⟨s2, F, W, B, H⟩ := quiet_working q
  have e := passes_energy q (Nat.zero_le _) le_rfl
  refine e.trans (le_of_eq ?_)
  rw [B 0]
  exact sum_congr rfl fun k _ => by rw [← F k]; rfl

/-- Falling freely without gravity and forces, damped. -/
theorem free_energy {S : Finset Nat} {m : Motion ℝ} {t : Tick ℝ} (hdt : 0 < t.dt) (hm : t.movers.Nodup) (hn : t.dyn.Nodup) (hu : AllUndriven S m.bodies)
    (hg : t.gravity = ⟨0, 0⟩) (hf : ∀ k ∈ S, (m.bodies k).f = ⟨0, 0⟩ ∧ (m.bodies k).t = 0) (hd0 : 0 ≤ t.damping) (hd1 : t.damping ≤ 1) :
    energy S (m.tick t.free).bodies ≤ energy S m.bodies := by
  rw [← energy_seen S m t hm]
  refine sum_le_sum fun k hk => ?_
  rw [free_bodies m t hdt.ne' hn k]
  have hfs : (m.seen t k).f = ⟨0, 0⟩ ∧ (m.seen t k).t = 0 := by
    simp only [Motion.seen, move_apply _ _ hm]
    split <;> exact hf k hk
  have us := (hu.seen hm) k hk
  have p0 : 0 ≤ t.damping ^ t.dt := Real.rpow_nonneg hd0 _
  have p1 : t.damping ^ t.dt ≤ 1 := Real.rpow_le_one hd0 hd1 hdt.le
  obtain ⟨d, hdd⟩ : ∃ d, d = t.damping ^ t.dt := ⟨_, rfl⟩
  rw [← hdd] at p0 p1 ⊢
  split
  · simp only [Body.updateVelocity]
    split
    · exact le_rfl
    · simp only [kineticEnergy_eq, hg, hfs.1, hfs.2]
      have h1 : 0 ≤ d ^ 2 := sq_nonneg d
      have h2 : d ^ 2 ≤ 1 := by nlinarith
      have em : 0 ≤ (m.seen t k).v.dot (m.seen t k).v * (m.seen t k).m := by
        rcases us.mass with ⟨a, b⟩ | ⟨a, b⟩
        · refine mul_nonneg (by simp only [Vec.dot]; nlinarith) ?_
          by_contra h; push Not at h; nlinarith
        · rw [b]; simp [Vec.dot]
      have ei : 0 ≤ (m.seen t k).w * (m.seen t k).w * (m.seen t k).i := by
        rcases us.moment with ⟨a, b⟩ | ⟨a, b⟩
        · refine mul_nonneg (mul_self_nonneg _) ?_
          by_contra h; push Not at h; nlinarith
        · rw [b]; simp
      have x1 := mul_le_mul_of_nonneg_right h2 em
      have x2 := mul_le_mul_of_nonneg_right h2 ei
      simp only [Vec.dot, Vec.add, Vec.mult] at x1 ⊢
      nlinarith
  · exact le_rfl

end CP
