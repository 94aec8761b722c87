import Verif.Proofs.Push2

/-! # Contacts that are alone; steps without overlap -/

namespace CP
open GoFloat

theorem preStep_mem {arb : Arb ℝ} {h : Bodies ℝ} {dt slop bc : ℝ} {c : Contact ℝ} (hc : c ∈ (arb.preStep h dt slop bc).contacts) :
    ∃ d ∈ arb.contacts, c.r1 = d.r1 ∧ c.r2 = d.r2 ∧ c.jBias = 0 ∧ c.bias = bc * max 0 (arb.overlap d h - slop) / dt := by
  simp only [Arb.preStep, List.mem_map] at hc
  obtain ⟨d, hd, rfl⟩ := hc
  refine ⟨d, hd, rfl, rfl, rfl, ?_⟩
  have : (((d.r2.sub d.r1).add ((h arb.b).p.sub (h arb.a).p)).dot arb.n + slop) = -(arb.overlap d h - slop) := by
    simp only [Arb.overlap, Vec.dot, Vec.sub, Vec.add]; ring
  simp only [this]
  have m : min 0 (-(arb.overlap d h - slop)) = -max 0 (arb.overlap d h - slop) := by
    rw [← min_neg_neg, neg_zero]
  rw [m]; ring

/-- No contact of the arbiter is deeper than the slop. -/
def Arb.Shallow (arb : Arb ℝ) (h : Bodies ℝ) (slop : ℝ) : Prop := ∀ c ∈ arb.contacts, arb.overlap c h ≤ slop
/-- No contact of the arbiter wants to push. -/
def Arb.Flat (arb : Arb ℝ) : Prop := ∀ c ∈ arb.contacts, c.jBias = 0 ∧ c.bias = 0

theorem preStep_shallow {arb : Arb ℝ} {h : Bodies ℝ} {dt slop bc : ℝ} (hs : arb.Shallow h slop) :
    (arb.preStep h dt slop bc).Shallow h slop ∧ (arb.preStep h dt slop bc).Flat := by
  constructor
  · intro c hc
    obtain ⟨d, hd, h1, h2, -, -⟩ := preStep_mem hc
    have := hs d hd
    have e : (arb.preStep h dt slop bc).overlap c h = arb.overlap d h := by
      simp only [Arb.overlap, Arb.preStep, h1, h2]
    rw [e]; exact this
  · intro c hc
    obtain ⟨d, hd, -, -, h3, h4⟩ := preStep_mem hc
    refine ⟨h3, ?_⟩
    rw [h4, max_eq_left (by have := hs d hd; linarith), mul_zero, zero_div]

theorem pre_flat (h0 : Bodies ℝ) (dt slop bc : ℝ) (arbs : List Nat) (l : List Nat) : ∀ (s : Solver ℝ) (done : List Nat), s.bodies = h0 → (∀ i ∈ arbs, (s.arbs i).Shallow h0 slop) →
    (∀ i ∈ done, (s.arbs i).Flat) → (∀ i ∈ l, i ∈ arbs) →
    ∀ i, i ∈ done ∨ i ∈ l → ((s.run (l.map fun k => .arbPreStep k dt slop bc)).arbs i).Flat := by
  induction l with
  | nil => intro s done _ _ hd _ i hi; rcases hi with hi | hi; exact hd i hi; cases hi
  | cons k l ih =>
    intro s done hb hsh hd hl i hi
    have hk := hl k List.mem_cons_self
    refine ih (s.step (.arbPreStep k dt slop bc)) (k :: done) hb ?_ ?_ (fun j hj => hl j (List.mem_cons_of_mem _ hj)) i ?_
    · intro j hj
      simp only [Solver.step, Solver.setArb]
      split
      · rw [hb]; exact (preStep_shallow (hsh k hk)).1
      · exact hsh j hj
    · intro j hj
      simp only [Solver.step, Solver.setArb]
      split
      · rw [hb]; exact (preStep_shallow (hsh k hk)).2
      · rename_i hne
        exact hd j ((List.mem_cons.1 hj).resolve_left hne)
    · rcases hi with hi | hi
      · exact .inl (List.mem_cons_of_mem _ hi)
      · rcases List.mem_cons.1 hi with rfl | hi
        · exact .inl List.mem_cons_self
        · exact .inr hi

theorem applyBias_zero (h : Bodies ℝ) (a b : Nat) (r1 r2 n : Vec ℝ) : applyBiasImpulses h a b r1 r2 (n.mult 0) = h := by
  funext x
  simp only [applyBiasImpulses, Bodies.set, Vec.mult, mul_zero, zero_mul, add_zero, neg_zero, sub_self]
  split
  · subst_vars; split
    · subst_vars; rfl
    · rfl
  · split
    · subst_vars; rfl
    · rfl

theorem loop_flat (arb : Arb ℝ) : ∀ (cs : List (Contact ℝ)) (h : Bodies ℝ), (∀ c ∈ cs, c.jBias = 0 ∧ c.bias = 0) →
    ((h arb.a).v_bias = ⟨0, 0⟩ ∧ (h arb.a).w_bias = 0) → ((h arb.b).v_bias = ⟨0, 0⟩ ∧ (h arb.b).w_bias = 0) →
    SameBias h (arb.applyLoop h cs).1 ∧ ∀ c ∈ (arb.applyLoop h cs).2, c.jBias = 0 ∧ c.bias = 0
  | [], h, _, _, _ => ⟨⟨fun _ => rfl, fun _ => rfl⟩, fun c hc => by simp [Arb.applyLoop] at hc⟩
  | c :: cs, h, hc, ha, hb => by
    obtain ⟨j0, b0⟩ := hc c List.mem_cons_self
    have key : SameBias h (arb.applyContact h c).1 ∧ (arb.applyContact h c).2.jBias = 0 ∧ (arb.applyContact h c).2.bias = 0 := by
      have hj : (arb.applyContact h c).2.jBias = 0 := by
        simp [Arb.applyContact, j0, b0, ha.1, ha.2, hb.1, hb.2, Vec.add, Vec.mult, Vec.sub, Vec.dot]
      refine ⟨?_, hj, b0⟩
      have hbod : (arb.applyContact h c).1 = applyImpulses (applyBiasImpulses h arb.a arb.b c.r1 c.r2 (arb.n.mult ((arb.applyContact h c).2.jBias - c.jBias))) arb.a arb.b c.r1 c.r2
        (arb.n.rotate ⟨(arb.applyContact h c).2.jnAcc - c.jnAcc, (arb.applyContact h c).2.jtAcc - c.jtAcc⟩) := rfl
      rw [hbod, hj, j0, sub_self, applyBias_zero]
      exact applyImpulses_bias ..
    obtain ⟨k1, k2, k3⟩ := key
    obtain ⟨r1, r2⟩ := loop_flat arb cs (arb.applyContact h c).1 (fun d hd => hc d (List.mem_cons_of_mem _ hd))
      ⟨(k1.eq _).trans ha.1, (k1.eqw _).trans ha.2⟩ ⟨(k1.eq _).trans hb.1, (k1.eqw _).trans hb.2⟩
    refine ⟨⟨fun x => (r1.eq x).trans (k1.eq x), fun x => (r1.eqw x).trans (k1.eqw x)⟩, ?_⟩
    intro d hd
    simp only [Arb.applyLoop, List.mem_cons] at hd
    rcases hd with rfl | hd
    · exact ⟨k2, k3⟩
    · exact r2 d hd

theorem cached_bias (arb : Arb ℝ) (h : Bodies ℝ) (co : ℝ) : SameBias h (arb.applyCached h co) := by
  unfold Arb.applyCached
  split
  · exact ⟨fun _ => rfl, fun _ => rfl⟩
  · have : ∀ (cs : List (Contact ℝ)) (h : Bodies ℝ), SameBias h (cs.foldl (fun h c =>
        let j := arb.n.rotate ⟨c.jnAcc, c.jtAcc⟩
        applyImpulses h arb.a arb.b c.r1 c.r2 (j.mult co)) h) := by
      intro cs
      induction cs with
      | nil => exact fun _ => ⟨fun _ => rfl, fun _ => rfl⟩
      | cons c cs ih =>
        intro h
        have h1 := applyImpulses_bias h arb.a arb.b c.r1 c.r2 ((arb.n.rotate ⟨c.jnAcc, c.jtAcc⟩).mult co)
        have h2 := ih (applyImpulses h arb.a arb.b c.r1 c.r2 ((arb.n.rotate ⟨c.jnAcc, c.jtAcc⟩).mult co))
        exact ⟨fun x => (h2.eq x).trans (h1.eq x), fun x => (h2.eqw x).trans (h1.eqw x)⟩
    exact this _ _

/-- Actions on arbiters that want nothing leave the pushing velocities alone. -/
theorem run_flat (arbs : List Nat) (ops : List (SolverOp ℝ)) : ∀ s : Solver ℝ, (∀ op ∈ ops, ∀ i, op.arb? = some i → i ∈ arbs) →
    (∀ op ∈ ops, ∀ i dt sl bc, op ≠ .arbPreStep i dt sl bc) → (∀ i ∈ arbs, (s.arbs i).Flat) →
    (∀ i ∈ arbs, ∀ x, x = (s.arbs i).a ∨ x = (s.arbs i).b → (s.bodies x).v_bias = ⟨0, 0⟩ ∧ (s.bodies x).w_bias = 0) →
    SameBias s.bodies (s.run ops).bodies := by
  induction ops with
  | nil => exact fun s _ _ _ _ => ⟨fun _ => rfl, fun _ => rfl⟩
  | cons op ops ih =>
    intro s ho hp hf hz
    have key : SameBias s.bodies (s.step op).bodies ∧ ∀ i ∈ arbs, ((s.step op).arbs i).Flat := by
      cases ha : op.arb? with
      | none =>
        refine ⟨run_bias [op] s (by intro o ho; rw [List.mem_singleton.1 ho]; exact ha), ?_⟩
        intro i hi
        cases op with
        | arbPreStep | arbCached | arbApply => cases ha
        | _ => exact hf i hi
      | some k =>
        cases op with
        | arbPreStep i dt sl bc => exact absurd rfl (hp _ List.mem_cons_self i dt sl bc)
        | arbCached i co => exact ⟨cached_bias _ _ _, hf⟩
        | arbApply i =>
          have hi := ho _ List.mem_cons_self i rfl
          have := loop_flat (s.arbs i) (s.arbs i).contacts s.bodies (hf i hi) (hz i hi _ (.inl rfl)) (hz i hi _ (.inr rfl))
          refine ⟨this.1, fun j hj => ?_⟩
          simp only [Solver.step, Solver.setArb]
          split
          · exact this.2
          · exact hf j hj
        | _ => cases ha
    have c2 := (step_con s op).2
    have r := ih (s.step op) (fun o h => ho o (List.mem_cons_of_mem _ h)) (fun o h => hp o (List.mem_cons_of_mem _ h)) key.2
      (fun i hi x hx => by
        rw [(c2 i).1, (c2 i).2] at hx
        obtain ⟨z1, z2⟩ := hz i hi x hx
        exact ⟨(key.1.eq x).trans z1, (key.1.eqw x).trans z2⟩)
    exact ⟨fun x => (r.eq x).trans (key.1.eq x), fun x => (r.eqw x).trans (key.1.eqw x)⟩

/-- A step in which nothing overlaps by more than the slop leaves all pushing velocities. -/
theorem shallow_bias (m : Motion ℝ) (t : Tick ℝ) (hdt : t.dt ≠ 0)
    (hs : ∀ i ∈ t.arbs, ∀ c ∈ (t.contact i).contacts, (t.contact i).overlap c (m.seen t) ≤ t.slop)
    (hz : ∀ i ∈ t.arbs, ∀ x, x = (t.contact i).a ∨ x = (t.contact i).b → (m.seen t x).v_bias = ⟨0, 0⟩ ∧ (m.seen t x).w_bias = 0) :
    SameBias (m.seen t) (m.tick t).bodies := by
  rw [tick_bodies m t hdt]
  obtain ⟨bc, hbc⟩ : ∃ bc : ℝ, bc = 1 - t.collisionBias ^ t.dt := ⟨_, rfl⟩
  obtain ⟨rest, hrest⟩ : ∃ rest, rest = t.joints.map (fun k => SolverOp.jointPreStep k t.dt) ++
    (t.dyn.map (fun k => SolverOp.integrate k t.gravity (t.damping ^ t.dt) t.dt) ++ postOps t m.currDt) := ⟨_, rfl⟩
  have hprog : Solver.stepProgram t.arbs t.joints t.dyn t.iterations t.dt m.currDt t.slop t.collisionBias t.damping t.gravity =
      t.arbs.map (fun k => SolverOp.arbPreStep k t.dt t.slop bc) ++ rest := by
    rw [program_split, preOps, hrest, hbc, List.append_assoc]
  rw [hprog, solver_run_append]
  obtain ⟨p1, -, -⟩ := run_arbPre t.arbs t.dt t.slop bc (m.begun t)
  have hfl := pre_flat (m.seen t) t.dt t.slop bc t.arbs t.arbs (m.begun t) [] rfl (fun i hi => hs i hi) (fun _ h => by cases h) (fun _ h => h)
  have hcon := run_arbCon (t.arbs.map fun k => SolverOp.arbPreStep k t.dt t.slop bc) (m.begun t)
  have := run_flat t.arbs rest ((m.begun t).run (t.arbs.map fun k => .arbPreStep k t.dt t.slop bc)) ?_ ?_ (fun i hi => hfl i (.inr hi)) ?_
  · rw [p1] at this
    exact this
  · intro op ho i hi
    refine program_arb t m.currDt op ?_ i hi
    rw [hprog]; exact List.mem_append_right _ ho
  · intro op ho i dt sl bc' e
    rw [hrest, postOps] at ho
    simp only [List.mem_append, List.mem_map, List.mem_flatten, List.mem_replicate] at ho
    rcases ho with ⟨i, _, rfl⟩ | ⟨i, _, rfl⟩ | ⟨i, _, rfl⟩ | ⟨i, _, rfl⟩ | ⟨l, ⟨_, rfl⟩, hl⟩
    · cases e
    · cases e
    · cases e
    · cases e
    · simp only [List.mem_append, List.mem_map] at hl
      rcases hl with ⟨i, _, rfl⟩ | ⟨i, _, rfl⟩ <;> cases e
  · intro i hi x hx
    rw [(hcon i).1, (hcon i).2] at hx
    rw [p1]
    exact hz i hi x hx

end CP
