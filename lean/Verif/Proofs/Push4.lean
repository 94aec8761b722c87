import Verif.Proofs.Push3

/-! # Two bodies that touch only each other -/

namespace CP
open GoFloat

/-- The pushing velocities of the two bodies of an arbiter are those that the bias impulse `J`, acting at one contact, gives. -/
structure Arb.Shoved (arb : Arb ℝ) (c : Contact ℝ) (h0 h : Bodies ℝ) (J : ℝ) : Prop where
  va : (h arb.a).v_bias = arb.n.mult (-(J * (h0 arb.a).m_inv))
  wa : (h arb.a).w_bias = -(J * (h0 arb.a).i_inv * c.r1.cross arb.n)
  vb : (h arb.b).v_bias = arb.n.mult (J * (h0 arb.b).m_inv)
  wb : (h arb.b).w_bias = J * (h0 arb.b).i_inv * c.r2.cross arb.n

theorem Arb.Shoved.pushVel {arb : Arb ℝ} {c : Contact ℝ} {h0 h : Bodies ℝ} {J : ℝ} (s : arb.Shoved c h0 h J) (hn : arb.n.dot arb.n = 1) :
    arb.pushVel c h = J * kScalar h0 arb.a arb.b c.r1 c.r2 arb.n := by
  simp only [Arb.pushVel, s.va, s.wa, s.vb, s.wb, kScalar, kScalarBody, Vec.dot, Vec.add, Vec.sub, Vec.mult, Vec.perp, Vec.cross] at hn ⊢
  linear_combination (J * ((h0 arb.a).m_inv + (h0 arb.b).m_inv)) * hn

/-- One call for a contact keeps the pushing velocities of this form. -/
theorem shoved_apply {arb : Arb ℝ} {c d : Contact ℝ} {h0 h : Bodies ℝ} (s : arb.Shoved d h0 h c.jBias) (hab : arb.a ≠ arb.b)
    (hf : ∀ x, Frozen (h0 x) (h x)) (h1 : c.r1 = d.r1) (h2 : c.r2 = d.r2) :
    arb.Shoved d h0 (arb.applyContact h c).1 (arb.applyContact h c).2.jBias := by
  have hba := hab.symm
  obtain ⟨J, hJ⟩ : ∃ J, J = (arb.applyContact h c).2.jBias := ⟨_, rfl⟩
  have hb : (arb.applyContact h c).1 = applyImpulses (applyBiasImpulses h arb.a arb.b d.r1 d.r2 (arb.n.mult (J - c.jBias))) arb.a arb.b d.r1 d.r2
      (arb.n.rotate ⟨(arb.applyContact h c).2.jnAcc - c.jnAcc, (arb.applyContact h c).2.jtAcc - c.jtAcc⟩) := by
    rw [hJ]
    simp only [Arb.applyContact, h1, h2]
  rw [hb, ← hJ]
  generalize (arb.n.rotate _) = w
  constructor
  · have := s.va
    simp only [applyImpulses, applyBiasImpulses, Bodies.set, hab, hba, if_false, if_true, Vec.mult, (hf _).m_inv, this, Vec.mk.injEq] at this ⊢
    constructor <;> ring
  · have := s.wa
    simp only [applyImpulses, applyBiasImpulses, Bodies.set, hab, hba, if_false, if_true, Vec.mult, Vec.cross, (hf _).i_inv, this] at this ⊢
    ring
  · have := s.vb
    simp only [applyImpulses, applyBiasImpulses, Bodies.set, hab, hba, if_false, if_true, Vec.mult, (hf _).m_inv, this, Vec.mk.injEq] at this ⊢
    constructor <;> ring
  · have := s.wb
    simp only [applyImpulses, applyBiasImpulses, Bodies.set, hab, hba, if_false, if_true, Vec.mult, Vec.cross, (hf _).i_inv, this] at this ⊢
    ring

/-- The state of the solver phase for an arbiter that is alone. -/
structure Solo (m : Motion ℝ) (t : Tick ℝ) (i : Nat) (c : Contact ℝ) (s : Solver ℝ) : Prop where
  stays : Stays m (m.seen t) s
  core : (s.arbs i).core = ((t.contact i).preStep (m.seen t) t.dt t.slop (1 - t.collisionBias ^ t.dt)).core
  con : ∀ k, (s.arbs k).a = (t.contact k).a ∧ (s.arbs k).b = (t.contact k).b
  shoved : ∃ c', (s.arbs i).contacts = [c'] ∧ (t.contact i).Shoved c (m.seen t) s.bodies c'.jBias

theorem Solo.step {m : Motion ℝ} {t : Tick ℝ} {i : Nat} {c : Contact ℝ} {s : Solver ℝ} (S : Solo m t i c s) (hl : t.Alone m i)
    (hab : (t.contact i).a ≠ (t.contact i).b) (hc : (t.contact i).contacts = [c]) (op : SolverOp ℝ)
    (ha : ∀ k, op.arb? = some k → k ∈ t.arbs) (hp : ∀ dt sl bc, op ≠ .arbPreStep i dt sl bc) : Solo m t i c (s.step op) := by
  refine ⟨S.stays.step op, (step_arbCore s op i hp).trans S.core, fun k => ?_, ?_⟩
  · obtain ⟨h1, h2⟩ := (step_con s op).2 k
    exact ⟨h1.trans (S.con k).1, h2.trans (S.con k).2⟩
  · obtain ⟨c', hc', hS⟩ := S.shoved
    by_cases hi : op.arb? = some i
    · cases op with
      | arbPreStep k dt sl bc => cases hi; exact absurd rfl (hp dt sl bc)
      | arbCached k co =>
        refine ⟨c', hc', ?_⟩
        have := cached_bias (s.arbs k) s.bodies co
        exact ⟨(this.eq _).trans hS.va, (this.eqw _).trans hS.wa, (this.eq _).trans hS.vb, (this.eqw _).trans hS.wb⟩
      | arbApply k =>
        cases hi
        obtain ⟨e1, e2, e3, -, -, -, e5⟩ := ready_of_core _ _ _ _ _ _ S.core
        rw [hc, hc'] at e5
        obtain ⟨hr, -⟩ := List.forall₂_cons.1 e5
        have hS' : (s.arbs i).Shoved c (m.seen t) s.bodies c'.jBias := by
          obtain ⟨q1, q2, q3, q4⟩ := hS
          refine ⟨?_, ?_, ?_, ?_⟩ <;> rw [e3] <;> first | rw [e1] | rw [e2]
          · exact q1
          · exact q2
          · exact q3
          · exact q4
        have hA := shoved_apply hS' (by rw [e1, e2]; exact hab) S.stays.frozen hr.r1 hr.r2
        refine ⟨((s.arbs i).applyContact s.bodies c').2, ?_, ?_⟩
        · simp only [Solver.step, Solver.setArb, if_true, Arb.applyImpulse, hc', Arb.applyLoop]
        · have hb : (s.step (.arbApply i)).bodies = ((s.arbs i).applyContact s.bodies c').1 := by
            simp only [Solver.step, Solver.setArb, Arb.applyImpulse, hc', Arb.applyLoop]
          rw [hb]
          obtain ⟨q1, q2, q3, q4⟩ := hA
          rw [e1, e3] at q1 q2
          rw [e2, e3] at q3 q4
          exact ⟨q1, q2, q3, q4⟩
      | _ => cases hi
    · have key : ∀ x, x = (t.contact i).a ∨ x = (t.contact i).b → ((s.step op).bodies x).v_bias = (s.bodies x).v_bias ∧ ((s.step op).bodies x).w_bias = (s.bodies x).w_bias := by
        intro x hx
        by_cases him : Immovable (m.bodies x)
        · cases hop : op.arb? with
          | none => exact step_bias_of s op x fun k hk => by rw [hop] at hk; cases hk
          | some k =>
            have hint : op.integrated? = none := by cases op <;> first | rfl | cases hop
            have hxi : Immovable (s.bodies x) := by
              refine ⟨?_, ?_⟩
              · rw [(S.stays.frozen x).m_inv, (seen_inertia m t x).1]; exact him.1
              · rw [(S.stays.frozen x).i_inv, (seen_inertia m t x).2]; exact him.2
            rw [(step_kicks s op hint).immovable x hxi]
            exact ⟨rfl, rfl⟩
        · refine step_bias_of s op x fun k hk => ?_
          rw [(S.con k).1, (S.con k).2]
          exact (hl.others k (ha k hk) (fun e => hi (by rw [hk, e])) x hx).resolve_left him
      have harb : (s.step op).arbs i = s.arbs i := by
        cases op with
        | arbPreStep k dt sl bc =>
          have : i ≠ k := fun e => hi (by rw [e]; rfl)
          simp only [Solver.step, Solver.setArb, if_neg this]
        | arbApply k =>
          have : i ≠ k := fun e => hi (by rw [e]; rfl)
          simp only [Solver.step, Solver.setArb, if_neg this]
        | _ => rfl
      refine ⟨c', by rw [harb]; exact hc', ?_⟩
      have ka := key _ (.inl rfl)
      have kb := key _ (.inr rfl)
      exact ⟨ka.1.trans hS.va, ka.2.trans hS.wa, kb.1.trans hS.vb, kb.2.trans hS.wb⟩

theorem Solo.run {m : Motion ℝ} {t : Tick ℝ} {i : Nat} {c : Contact ℝ} (hl : t.Alone m i)
    (hab : (t.contact i).a ≠ (t.contact i).b) (hc : (t.contact i).contacts = [c]) (ops : List (SolverOp ℝ)) :
    ∀ {s : Solver ℝ}, Solo m t i c s → (∀ op ∈ ops, ∀ k, op.arb? = some k → k ∈ t.arbs) → (∀ op ∈ ops, ∀ dt sl bc, op ≠ .arbPreStep i dt sl bc) → Solo m t i c (s.run ops) := by
  induction ops with
  | nil => exact fun S _ _ => S
  | cons op ops ih =>
    intro s S h1 h2
    exact ih (S.step hl hab hc op (h1 op List.mem_cons_self) (h2 op List.mem_cons_self)) (fun o ho => h1 o (List.mem_cons_of_mem _ ho))
      (fun o ho => h2 o (List.mem_cons_of_mem _ ho))

theorem Tick.Alone.cut {m : Motion ℝ} {t : Tick ℝ} {i : Nat} (hl : t.Alone m i) : 0 < t.iterations ∧ ∃ pre post, t.arbs = pre ++ i :: post ∧ i ∉ pre ∧ i ∉ post ∧
    ∀ k ∈ post, ∀ x, x = (t.contact i).a ∨ x = (t.contact i).b → Immovable (m.bodies x) ∨ (x ≠ (t.contact k).a ∧ x ≠ (t.contact k).b) := by
  have hm : i ∈ t.arbs := List.count_pos_iff.1 (by rw [hl.once]; exact Nat.one_pos)
  obtain ⟨pre, post, e⟩ := List.append_of_mem hm
  have hco := hl.once
  rw [e, List.count_append, List.count_cons_self] at hco
  have h1 : i ∉ pre := List.count_eq_zero.1 (by omega)
  have h2 : i ∉ post := List.count_eq_zero.1 (by omega)
  refine ⟨hl.iterations, pre, post, e, h1, h2, fun k hk x hx => hl.others k ?_ (fun e => h2 (e ▸ hk)) x hx⟩
  rw [e]
  exact List.mem_append_right _ (List.mem_cons_of_mem _ hk)

/-- The pushing velocities after a step in which the two bodies touch only each other, at one contact. -/
theorem alone_shoved (m : Motion ℝ) (t : Tick ℝ) (i : Nat) (c : Contact ℝ) (hdt : 0 < t.dt) (hl : t.Alone m i)
    (hc : (t.contact i).contacts = [c]) (hab : (t.contact i).a ≠ (t.contact i).b) (hn : (t.contact i).n.dot (t.contact i).n = 1)
    (hs : Solvable m.bodies (t.contact i).a (t.contact i).b) (hr : t.collisionBias ^ t.dt ≤ 1)
    (hz : ∀ x, x = (t.contact i).a ∨ x = (t.contact i).b → (m.seen t x).v_bias = ⟨0, 0⟩ ∧ (m.seen t x).w_bias = 0) :
    (t.contact i).Shoved c (m.seen t) (m.tick t).bodies ((1 - t.collisionBias ^ t.dt) * max 0 ((t.contact i).overlap c (m.seen t) - t.slop) / t.dt /
      kScalar (m.seen t) (t.contact i).a (t.contact i).b c.r1 c.r2 (t.contact i).n) := by
  obtain ⟨hit, pre, post, harb, hpre, hpost, hx⟩ := hl.cut
  obtain ⟨B, hprog, hBa, hBp⟩ := program_cut t m.currDt i pre post harb hit
  obtain ⟨bc, hbc⟩ : ∃ bc : ℝ, bc = 1 - t.collisionBias ^ t.dt := ⟨_, rfl⟩
  rw [← hbc] at hprog ⊢
  obtain ⟨sA, hsA⟩ : ∃ sA, sA = (m.begun t).run (pre.map fun k => .arbPreStep k t.dt t.slop bc) := ⟨_, rfl⟩
  obtain ⟨sP, hsP⟩ : ∃ sP, sP = sA.step (.arbPreStep i t.dt t.slop bc) := ⟨_, rfl⟩
  obtain ⟨sB, hsB⟩ : ∃ sB, sB = sP.run B := ⟨_, rfl⟩
  obtain ⟨sC, hsC⟩ : ∃ sC, sC = sB.step (.arbApply i) := ⟨_, rfl⟩
  obtain ⟨pA1, pA2, pA3⟩ := run_arbPre pre t.dt t.slop bc (m.begun t)
  rw [← hsA] at pA1 pA2 pA3
  have hP : sP.arbs i = (t.contact i).preStep (m.seen t) t.dt t.slop bc := by
    rw [hsP]
    simp only [Solver.step, Solver.setArb, if_pos]
    rw [pA3 i hpre, pA1]
    rfl
  have hPb : sP.bodies = m.seen t := by rw [hsP]; exact pA1
  have SP : Solo m t i c sP := by
    refine ⟨by rw [hsP, hsA]; exact ((begun_stays m t).run _).step _, by rw [hP, hbc], ?_, ?_⟩
    · intro k
      have : sP = (m.begun t).run ((pre.map fun k => .arbPreStep k t.dt t.slop bc) ++ [.arbPreStep i t.dt t.slop bc]) := by
        rw [solver_run_append, ← hsA, hsP]; rfl
      rw [this]
      exact run_arbCon _ _ k
    · have hm : ∃ c', (sP.arbs i).contacts = [c'] ∧ c'.jBias = 0 := by
        rw [hP]
        simp only [Arb.preStep, hc, List.map_cons, List.map_nil]
        exact ⟨_, rfl, rfl⟩
      obtain ⟨c', h1, h2⟩ := hm
      refine ⟨c', h1, ?_⟩
      rw [h2, hPb]
      obtain ⟨za, za'⟩ := hz _ (.inl rfl)
      obtain ⟨zb, zb'⟩ := hz _ (.inr rfl)
      refine ⟨?_, ?_, ?_, ?_⟩
      · rw [za]; simp [Vec.mult]
      · rw [za']; simp
      · rw [zb]; simp [Vec.mult]
      · rw [zb']; simp
  have hPre : ∀ op ∈ B, ∀ dt sl bc, op ≠ .arbPreStep i dt sl bc := fun op ho dt sl bc' e => hpost (hBp op ho i dt sl bc' e)
  have SB : Solo m t i c sB := by rw [hsB]; exact SP.run hl hab hc B hBa hPre
  have him : i ∈ t.arbs := by rw [harb]; simp
  have SC : Solo m t i c sC := by
    rw [hsC]; exact SB.step hl hab hc _ (fun k hk => by cases hk; exact him) (fun _ _ _ e => by cases e)
  -- the impulse that the last call stores
  have hJ : ∀ c', (sC.arbs i).contacts = [c'] → c'.jBias = bc * max 0 ((t.contact i).overlap c (m.seen t) - t.slop) / t.dt /
      kScalar (m.seen t) (t.contact i).a (t.contact i).b c.r1 c.r2 (t.contact i).n := by
    intro c' hc'
    obtain ⟨d, hd, hS⟩ := SB.shoved
    obtain ⟨e1, e2, e3, -, -, -, e5⟩ := ready_of_core _ _ _ _ _ _ SB.core
    rw [hc, hd] at e5
    obtain ⟨hrd, -⟩ := List.forall₂_cons.1 e5
    have ec : c' = ((sB.arbs i).applyContact sB.bodies d).2 := by
      rw [hsC] at hc'
      simp only [Solver.step, Solver.setArb, if_true, Arb.applyImpulse, hd, Arb.applyLoop, List.cons.injEq, and_true] at hc'
      exact hc'.symm
    have hpv := (contact_push (sB.arbs i) sB.bodies (m.seen t) d c (by rw [e1, e2]; exact hab) (by rw [e3]; exact hn) SB.stays.frozen hrd.r1 hrd.r2).2
    have hpe : (sB.arbs i).pushVel c sB.bodies = d.jBias * kScalar (m.seen t) (t.contact i).a (t.contact i).b c.r1 c.r2 (t.contact i).n := by
      rw [← hS.pushVel hn]
      exact (pushVel_congr e1 e2 e3 (fun x _ => ⟨rfl, rfl⟩)).symm
    have hk := (solvable_seen hs (t := t)).kScalar_pos c.r1 c.r2 (t.contact i).n
    rw [ec, hpv, hpe, hrd.nMass, hrd.bias, ← hbc]
    generalize kScalar (m.seen t) (t.contact i).a (t.contact i).b c.r1 c.r2 (t.contact i).n = K at hk
    have hnn : 0 ≤ bc * max 0 ((t.contact i).overlap c (m.seen t) - t.slop) / t.dt := by
      have := le_max_left 0 ((t.contact i).overlap c (m.seen t) - t.slop)
      have hb0 : 0 ≤ bc := by rw [hbc]; linarith
      positivity
    generalize bc * max 0 ((t.contact i).overlap c (m.seen t) - t.slop) / t.dt = β at hnn
    have : d.jBias + (β - d.jBias * K) * (1 / K) = β / K := by field_simp; ring
    rw [this]
    exact max_eq_left (div_nonneg hnn hk.le)
  have hfin : (m.tick t).bodies = (sC.run (post.map (fun k => (SolverOp.arbApply k : SolverOp ℝ)) ++ t.joints.map (fun k => SolverOp.jointApply k t.dt))).bodies := by
    rw [tick_bodies m t hdt.ne', hprog, solver_run_append, ← hsA]
    have e2 : ∀ (s : Solver ℝ) op l, s.run (op :: l) = (s.step op).run l := fun _ _ _ => rfl
    rw [e2, ← hsP, solver_run_append, ← hsB, e2, ← hsC]
  obtain ⟨c', hc', hS⟩ := SC.shoved
  rw [hJ c' hc'] at hS
  have hb : ∀ x, x = (t.contact i).a ∨ x = (t.contact i).b → ((m.tick t).bodies x).v_bias = (sC.bodies x).v_bias ∧ ((m.tick t).bodies x).w_bias = (sC.bodies x).w_bias := by
    intro x hxx
    rw [hfin]
    by_cases him : Immovable (m.bodies x)
    · have hxi : Immovable (sC.bodies x) := by
        refine ⟨?_, ?_⟩
        · rw [(SC.stays.frozen x).m_inv, (seen_inertia m t x).1]; exact him.1
        · rw [(SC.stays.frozen x).i_inv, (seen_inertia m t x).2]; exact him.2
      rw [run_immovable x _ sC hxi (by
        intro op ho
        simp only [List.mem_append, List.mem_map] at ho
        rcases ho with ⟨j, hj, rfl⟩ | ⟨j, hj, rfl⟩ <;> rfl)]
      exact ⟨rfl, rfl⟩
    refine run_bias_of _ x sC ?_
    intro op ho k hk
    rw [(SC.con k).1, (SC.con k).2]
    simp only [List.mem_append, List.mem_map] at ho
    rcases ho with ⟨j, hj, rfl⟩ | ⟨j, hj, rfl⟩
    · cases hk; exact (hx _ hj x hxx).resolve_left him
    · cases hk
  have ka := hb _ (.inl rfl)
  have kb := hb _ (.inr rfl)
  exact ⟨ka.1.trans hS.va, ka.2.trans hS.wa, kb.1.trans hS.vb, kb.2.trans hS.wb⟩

end CP
