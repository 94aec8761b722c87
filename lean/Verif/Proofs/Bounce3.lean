import Verif.Proofs.Bounce2
import Verif.Proofs.Push4

/-! # The impulse between two bodies that touch only each other: the whole step -/

namespace CP
open GoFloat

/-- The impulse that the step gives two bodies that touch only each other: normal part. -/
noncomputable def duelN (m : Motion ℝ) (t : Tick ℝ) (i : Nat) (c : Contact ℝ) (N : ℝ) : ℝ :=
  max (-((t.contact i).e * (t.contact i).partVel c (m.seen t) + (t.contact i).partVel c (m.tick t.free).bodies) /
        (t.contact i).response c (m.tick t.free).bodies (t.contact i).n - N) 0
/-- … and along the surface. -/
noncomputable def duelT (m : Motion ℝ) (t : Tick ℝ) (i : Nat) (c : Contact ℝ) (N T : ℝ) : ℝ :=
  clamp (-(t.contact i).slipVel c (m.tick t.free).bodies / (t.contact i).response c (m.tick t.free).bodies (t.contact i).n.perp - T)
        (-((t.contact i).u * duelN m t i c N)) ((t.contact i).u * duelN m t i c N)

/-- The state with the solver's final impulses. -/
def Decided (m : Motion ℝ) (t : Tick ℝ) (i : Nat) (c : Contact ℝ) (N T : ℝ) (s : Solver ℝ) : Prop :=
  ∃ c', Dueling m t i c N T c' s ∧ c'.jnAcc = duelN m t i c N ∧ c'.jtAcc = duelT m t i c N T

theorem Dueling.decide {m : Motion ℝ} {t : Tick ℝ} {i : Nat} {c : Contact ℝ} {N T : ℝ} {c' : Contact ℝ} {s : Solver ℝ} (D : t.Duel m i c) (S : Dueling m t i c N T c' s) :
    Decided m t i c N T (s.step (.arbApply i)) := by
  obtain ⟨d, S', h1, h2⟩ := S.apply D
  refine ⟨d, S', h1, ?_⟩
  rw [h2, h1]; rfl

theorem Tick.Duel.split {m : Motion ℝ} {t : Tick ℝ} {i : Nat} {c : Contact ℝ} (D : t.Duel m i c) : ∃ pre post, t.arbs = pre ++ i :: post ∧ i ∉ pre ∧ i ∉ post := by
  have hm : i ∈ t.arbs := List.count_pos_iff.1 (by rw [D.once]; exact Nat.one_pos)
  obtain ⟨pre, post, e⟩ := List.append_of_mem hm
  have hco := D.once
  rw [e, List.count_append, List.count_cons_self] at hco
  exact ⟨pre, post, e, List.count_eq_zero.1 (by omega), List.count_eq_zero.1 (by omega)⟩

/-- One pass of the solver. -/
theorem Dueling.pass {m : Motion ℝ} {t : Tick ℝ} {i : Nat} {c : Contact ℝ} {N T : ℝ} {c' : Contact ℝ} {s : Solver ℝ} (D : t.Duel m i c) (S : Dueling m t i c N T c' s) :
    Decided m t i c N T (s.run (t.arbs.map (fun k => (SolverOp.arbApply k : SolverOp ℝ)) ++ t.joints.map (fun k => SolverOp.jointApply k t.dt))) := by
  obtain ⟨pre, post, harb, hpre, hpost⟩ := D.split
  have hm : ∀ k, k ∈ pre ∨ k ∈ post → k ∈ t.arbs ∧ k ≠ i := by
    rintro k (h | h)
    · exact ⟨by rw [harb]; simp [h], fun e => hpre (e ▸ h)⟩
    · exact ⟨by rw [harb]; simp [h], fun e => hpost (e ▸ h)⟩
  have e : t.arbs.map (fun k => (SolverOp.arbApply k : SolverOp ℝ)) ++ t.joints.map (fun k => SolverOp.jointApply k t.dt) =
      pre.map (fun k => (SolverOp.arbApply k : SolverOp ℝ)) ++ (SolverOp.arbApply i :: (post.map (fun k => (SolverOp.arbApply k : SolverOp ℝ)) ++
        t.joints.map (fun k => SolverOp.jointApply k t.dt))) := by
    rw [harb]; simp
  rw [e, solver_run_append]
  have S1 := S.elsewhere D (pre.map (fun k => (SolverOp.arbApply k : SolverOp ℝ))) (by
    intro op ho
    obtain ⟨k, hk, rfl⟩ := List.mem_map.1 ho
    obtain ⟨h1, h2⟩ := hm k (.inl hk)
    exact ⟨rfl, fun _ h => by (cases h), fun _ h => by (cases h; exact h1), fun h => by (cases h; exact h2 rfl)⟩)
  obtain ⟨d, S2, h1, h2⟩ := S1.decide D
  have e2 : ∀ (s : Solver ℝ) op l, s.run (op :: l) = (s.step op).run l := fun _ _ _ => rfl
  rw [e2]
  refine ⟨d, S2.elsewhere D _ ?_, h1, h2⟩
  intro op ho
  rcases List.mem_append.1 ho with h | h <;> obtain ⟨k, hk, rfl⟩ := List.mem_map.1 h
  · obtain ⟨h1, h2⟩ := hm k (.inr hk)
    exact ⟨rfl, fun _ h => by (cases h), fun _ h => by (cases h; exact h1), fun h => by (cases h; exact h2 rfl)⟩
  · exact ⟨rfl, fun _ h => by (cases h; exact hk), fun _ h => by (cases h), fun h => by (cases h)⟩

theorem Dueling.passes {m : Motion ℝ} {t : Tick ℝ} {i : Nat} {c : Contact ℝ} {N T : ℝ} (D : t.Duel m i c) : ∀ (n : Nat) {c' : Contact ℝ} {s : Solver ℝ},
    Dueling m t i c N T c' s → Decided m t i c N T (s.run (passes t (n + 1)))
  | 0, c', s, S => by
    have : CP.passes t 1 = t.arbs.map (fun k => (SolverOp.arbApply k : SolverOp ℝ)) ++ t.joints.map (fun k => SolverOp.jointApply k t.dt) := by simp [CP.passes]
    rw [this]
    exact S.pass D
  | n + 1, c', s, S => by
    rw [show n + 1 + 1 = 1 + (n + 1) from Nat.add_comm _ _, passes_add, solver_run_append]
    obtain ⟨d, S', -, -⟩ := Dueling.passes D 0 S
    exact Dueling.passes D n S'

/-- The step of two bodies that touch only each other: the impulse between them, and what the arbiter stores. -/
theorem duel_kicked {m : Motion ℝ} {t : Tick ℝ} {i : Nat} {c : Contact ℝ} (D : t.Duel m i c) :
    (t.contact i).Kicked c (m.tick t.free).bodies (m.tick t).bodies ((t.contact i).impulse
      (duelN m t i c ((t.carriedOver m i - 1) * c.jnAcc) + (t.carriedOver m i - 1) * c.jnAcc)
      (duelT m t i c ((t.carriedOver m i - 1) * c.jnAcc) ((t.carriedOver m i - 1) * c.jtAcc) + (t.carriedOver m i - 1) * c.jtAcc)) ∧
    ∃ c', (m.leftArb t i).contacts = [c'] ∧ (m.leftArb t i).n = (t.contact i).n ∧ c'.r1 = c.r1 ∧ c'.r2 = c.r2 ∧
      c'.jnAcc = duelN m t i c ((t.carriedOver m i - 1) * c.jnAcc) ∧
      c'.jtAcc = duelT m t i c ((t.carriedOver m i - 1) * c.jnAcc) ((t.carriedOver m i - 1) * c.jtAcc) := by
  have hit := D.iterations
  obtain ⟨pre, post, harb, hpre, hpost⟩ := D.split
  have hdt := D.pos.ne'
  have hm : ∀ k, k ∈ pre ∨ k ∈ post → k ∈ t.arbs ∧ k ≠ i := by
    rintro k (h | h)
    · exact ⟨by rw [harb]; simp [h], fun e => hpre (e ▸ h)⟩
    · exact ⟨by rw [harb]; simp [h], fun e => hpost (e ▸ h)⟩
  obtain ⟨bc, hbc⟩ : ∃ bc : ℝ, bc = 1 - t.collisionBias ^ t.dt := ⟨_, rfl⟩
  -- preparing
  obtain ⟨sP, hsP⟩ : ∃ sP, sP = (startOf m t).run (preOps t) := ⟨_, rfl⟩
  have stP : Stays m (m.seen t) sP := by rw [hsP]; exact (begun_stays m t).run _
  have hP : sP.arbs i = (t.contact i).preStep (m.seen t) t.dt t.slop bc ∧ ∀ x, x = (t.contact i).a ∨ x = (t.contact i).b → sP.bodies x = m.seen t x := by
    obtain ⟨q1, q2, q3⟩ := run_arbPre pre t.dt t.slop bc (startOf m t)
    obtain ⟨sA, hsA⟩ : ∃ sA, sA = ((startOf m t).run (pre.map fun k => .arbPreStep k t.dt t.slop bc)).step (.arbPreStep i t.dt t.slop bc) := ⟨_, rfl⟩
    have hA : sA.arbs i = (t.contact i).preStep (m.seen t) t.dt t.slop bc := by
      rw [hsA]
      simp only [Solver.step, Solver.setArb, if_pos]
      rw [q3 i hpre, q1]; rfl
    have hAb : sA.bodies = m.seen t := by rw [hsA]; exact q1
    have hAj : sA.joints = m.joints := by rw [hsA]; exact q2
    obtain ⟨r1, r2, r3⟩ := run_arbPre post t.dt t.slop bc sA
    obtain ⟨sB, hsB⟩ : ∃ sB, sB = sA.run (post.map fun k => .arbPreStep k t.dt t.slop bc) := ⟨_, rfl⟩
    rw [← hsB] at r1 r2 r3
    have eP : sP = sB.run (t.joints.map fun k => .jointPreStep k t.dt) := by
      rw [hsP, preOps, harb, ← hbc]
      simp only [List.map_append, List.map_cons, List.append_assoc, List.cons_append]
      rw [solver_run_append]
      have e2 : ∀ (s : Solver ℝ) op l, s.run (op :: l) = (s.step op).run l := fun _ _ _ => rfl
      rw [e2, solver_run_append, hsB, hsA]
    constructor
    · have : ∀ (l : List Nat) (s : Solver ℝ), (s.run (l.map fun k => SolverOp.jointPreStep k t.dt)).arbs = s.arbs := by
        intro l
        induction l with
        | nil => exact fun _ => rfl
        | cons k l ih => exact fun s => ih (s.step (.jointPreStep k t.dt))
      rw [eP, this, r3 i hpost, hA]
    · intro x hx
      rw [eP, ← hAb, ← r1]
      rcases D.lone x hx with him | hlo
      · refine run_immovable x _ sB ?_ ?_
        · rw [r1, hAb]
          exact ⟨(seen_inv m t x).1.trans him.1, (seen_inv m t x).2.trans him.2⟩
        · intro op ho; obtain ⟨k, hk, rfl⟩ := List.mem_map.1 ho; rfl
      refine run_apart x _ sB ?_ ?_ ?_
      · intro op ho; obtain ⟨k, hk, rfl⟩ := List.mem_map.1 ho; rfl
      · intro op ho k hk
        obtain ⟨k', hk', rfl⟩ := List.mem_map.1 ho
        cases hk
        rw [r2, hAj]
        exact hlo.unjoined _ hk'
      · intro op ho k hk; obtain ⟨k', hk', rfl⟩ := List.mem_map.1 ho; cases hk
  -- falling
  obtain ⟨i1, i2, i3⟩ := integrate_apply t.gravity (t.damping ^ t.dt) t.dt t.dyn D.dyn sP
  obtain ⟨sI, hsI⟩ : ∃ sI, sI = sP.run (t.dyn.map fun k => SolverOp.integrate k t.gravity (t.damping ^ t.dt) t.dt) := ⟨_, rfl⟩
  rw [← hsI] at i1 i2 i3
  have hI : ∀ x, x = (t.contact i).a ∨ x = (t.contact i).b → sI.bodies x = (m.tick t.free).bodies x := by
    intro x hx
    rw [i1 x, free_bodies m t hdt D.dyn x, hP.2 x hx]
  have conI : ∀ k, (sI.arbs k).a = (t.contact k).a ∧ (sI.arbs k).b = (t.contact k).b := by
    intro k; rw [i3, hsP]; exact run_arbCon _ _ k
  obtain ⟨c0, hc0, n0, t0⟩ : ∃ c0, (sI.arbs i).contacts = [c0] ∧ c0.jnAcc = c.jnAcc ∧ c0.jtAcc = c.jtAcc := by
    rw [i3, hP.1]
    simp only [Arb.preStep, D.one, List.map_cons, List.map_nil]
    exact ⟨_, rfl, rfl, rfl⟩
  have pl : ∀ x : ℝ, (t.contact i).Straight c m.bodies ∨ ((t.contact i).u = 0 ∧ c0.jtAcc = 0 ∧ x * c.jtAcc = 0) := by
    intro x
    rcases D.plain with h | ⟨h1, h2⟩
    · exact .inl h
    · exact .inr ⟨h1, by rw [t0, h2], by rw [h2]; ring⟩
  have SI : Dueling m t i c ((0 - 1) * c.jnAcc) ((0 - 1) * c.jtAcc) c0 sI := by
    refine ⟨by rw [hsI]; exact stP.run _, by rw [i3, hP.1, hbc], conI, hc0, ?_, pl _⟩
    rw [n0, t0, show c.jnAcc + (0 - 1) * c.jnAcc = 0 by ring, show c.jtAcc + (0 - 1) * c.jtAcc = 0 by ring]
    refine ⟨?_, ?_, ?_, ?_⟩ <;> first | rw [hI _ (.inl rfl)] | rw [hI _ (.inr rfl)]
    all_goals simp [Arb.impulse, Vec.sub, Vec.add, Vec.mult, Vec.cross]
  -- the stored impulses
  obtain ⟨co, hco⟩ : ∃ co : ℝ, co = if m.currDt ≠ 0 then t.dt / m.currDt else 0 := ⟨_, rfl⟩
  have S1 := SI.elsewhere D (pre.map (fun k => (SolverOp.arbCached k co : SolverOp ℝ))) (by
    intro op ho
    obtain ⟨k, hk, rfl⟩ := List.mem_map.1 ho
    obtain ⟨h1, h2⟩ := hm k (.inl hk)
    exact ⟨rfl, fun _ h => by (cases h), fun _ h => by (cases h; exact h1), fun h => by (cases h; exact h2 rfl)⟩)
  obtain ⟨s1, hs1⟩ : ∃ s1, s1 = sI.run (pre.map (fun k => (SolverOp.arbCached k co : SolverOp ℝ))) := ⟨_, rfl⟩
  rw [← hs1] at S1
  have S2 : Dueling m t i c ((t.carriedOver m i - 1) * c.jnAcc) ((t.carriedOver m i - 1) * c.jtAcc) c0 (s1.step (.arbCached i co)) := by
    refine ⟨S1.stays.step _, S1.core, S1.con, S1.contacts, ?_, pl _⟩
    obtain ⟨e1, e2, e3, -, -, -, e7⟩ := ready_of_core _ _ _ _ _ _ S1.core
    rw [D.one, S1.contacts] at e7
    obtain ⟨hr, -⟩ := List.forall₂_cons.1 e7
    have ef : (s1.arbs i).first = (t.contact i).first := by
      have := congrArg Arb.first S1.core
      exact this
    by_cases hf : (t.contact i).first
    · have : (s1.step (.arbCached i co)).bodies = s1.bodies := by
        simp only [Solver.step, Arb.applyCached, ef, hf, if_true]
      rw [this, Tick.carriedOver, if_pos hf]
      exact S1.kicked
    · have hc2 : t.carriedOver m i = co := by
        rw [Tick.carriedOver, if_neg hf, hco]
        by_cases h0 : m.currDt = 0 <;> simp [h0]
      have hff := free_frozen m t hdt D.dyn
      have hb : (s1.step (.arbCached i co)).bodies = applyImpulses s1.bodies (t.contact i).a (t.contact i).b c.r1 c.r2 ((t.contact i).impulse (co * c.jnAcc) (co * c.jtAcc)) := by
        have : (t.contact i).impulse (co * c.jnAcc) (co * c.jtAcc) = ((s1.arbs i).n.rotate ⟨c0.jnAcc, c0.jtAcc⟩).mult co := by
          rw [e3, n0, t0]
          simp only [Vec.rotate, Arb.impulse, Vec.add, Vec.mult, Vec.perp, Vec.mk.injEq]
          constructor <;> ring
        rw [this]
        simp only [Solver.step, Arb.applyCached, ef, hf, S1.contacts, List.foldl, e1, e2, hr.r1, hr.r2]
        rfl
      have k := S1.kicked.more (h'' := (s1.step (.arbCached i co)).bodies) (J' := co * c.jnAcc) (T' := co * c.jtAcc) D.ne
        ⟨by rw [(S1.stays.frozen _).m_inv, (hff _).m_inv], by rw [(S1.stays.frozen _).i_inv, (hff _).i_inv]⟩
        ⟨by rw [(S1.stays.frozen _).m_inv, (hff _).m_inv], by rw [(S1.stays.frozen _).i_inv, (hff _).i_inv]⟩ (fun x => by rw [hb]; exact ⟨rfl, rfl⟩)
      have a1 : c0.jnAcc + (0 - 1) * c.jnAcc + co * c.jnAcc = c0.jnAcc + (t.carriedOver m i - 1) * c.jnAcc := by rw [hc2]; ring
      have a2 : c0.jtAcc + (0 - 1) * c.jtAcc + co * c.jtAcc = c0.jtAcc + (t.carriedOver m i - 1) * c.jtAcc := by rw [hc2]; ring
      rw [a1, a2] at k
      exact k
  have S3 := S2.elsewhere D (post.map (fun k => (SolverOp.arbCached k co : SolverOp ℝ)) ++ t.joints.map (fun k => SolverOp.jointCached k co)) (by
    intro op ho
    rcases List.mem_append.1 ho with h | h <;> obtain ⟨k, hk, rfl⟩ := List.mem_map.1 h
    · obtain ⟨h1, h2⟩ := hm k (.inr hk)
      exact ⟨rfl, fun _ h => by (cases h), fun _ h => by (cases h; exact h1), fun h => by (cases h; exact h2 rfl)⟩
    · exact ⟨rfl, fun _ h => by (cases h; exact hk), fun _ h => by (cases h), fun h => by (cases h)⟩)
  -- the passes
  obtain ⟨n, hn⟩ : ∃ n, t.iterations = n + 1 := ⟨t.iterations - 1, by omega⟩
  obtain ⟨d, S4, j1, j2⟩ := Dueling.passes D n S3
  have fin : (startOf m t).run (Solver.stepProgram t.arbs t.joints t.dyn t.iterations t.dt m.currDt t.slop t.collisionBias t.damping t.gravity) =
      ((s1.step (.arbCached i co)).run (post.map (fun k => (SolverOp.arbCached k co : SolverOp ℝ)) ++
      t.joints.map (fun k => SolverOp.jointCached k co))).run (passes t (n + 1)) := by
    have e2 : ∀ (s : Solver ℝ) op l, s.run (op :: l) = (s.step op).run l := fun _ _ _ => rfl
    have : postOps t m.currDt = pre.map (fun k => (SolverOp.arbCached k co : SolverOp ℝ)) ++ (SolverOp.arbCached i co :: ((post.map (fun k => (SolverOp.arbCached k co : SolverOp ℝ)) ++
        t.joints.map (fun k => SolverOp.jointCached k co)) ++ passes t (n + 1))) := by
      simp only [postOps, passes, ← hco, ← hn]
      conv_lhs => rw [show t.arbs.map (fun k => (SolverOp.arbCached k co : SolverOp ℝ)) = pre.map (fun k => (SolverOp.arbCached k co : SolverOp ℝ)) ++
        (SolverOp.arbCached i co :: post.map (fun k => (SolverOp.arbCached k co : SolverOp ℝ))) by rw [harb]; simp]
      simp only [List.append_assoc, List.cons_append]
    rw [program_split, solver_run_append, ← hsP, solver_run_append, ← hsI, this, solver_run_append, ← hs1, e2, solver_run_append]
  have finB : (m.tick t).bodies = ((startOf m t).run (Solver.stepProgram t.arbs t.joints t.dyn t.iterations t.dt m.currDt t.slop t.collisionBias t.damping t.gravity)).bodies := by
    simp only [Motion.tick, if_neg hdt]
    rfl
  have finA : m.leftArb t i = ((startOf m t).run (Solver.stepProgram t.arbs t.joints t.dyn t.iterations t.dt m.currDt t.slop t.collisionBias t.damping t.gravity)).arbs i := rfl
  obtain ⟨-, -, e3, -, -, -, e7⟩ := ready_of_core _ _ _ _ _ _ S4.core
  rw [D.one, S4.contacts] at e7
  obtain ⟨hr, -⟩ := List.forall₂_cons.1 e7
  constructor
  · rw [finB, fin, ← j1, ← j2]
    exact S4.kicked
  · rw [finA, fin]
    exact ⟨d, S4.contacts, e3, hr.r1, hr.r2, j1, j2⟩

end CP
