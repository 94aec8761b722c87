import Verif.Proofs.Solver
import Verif.Spec.Momentum
import Verif.Props.Body

/-! # C15, C16: conservation of momentum, immovable bodies -/

namespace CP
open GoFloat Finset

theorem sum_pairv (S : Finset Nat) (a b : Nat) (ha : a ∈ S) (hb : b ∈ S) (x y : ℝ) (mi m : Nat → ℝ)
    (hm : ∀ k ∈ S, m k * mi k = 1) (c : Nat → ℝ) :
    ∑ k ∈ S, c k * (m k * (pairv a b k y x * mi k)) = c b * x - c a * y := by
  have : ∀ k ∈ S, c k * (m k * (pairv a b k y x * mi k)) =
      (if k = b then c k * x else 0) - (if k = a then c k * y else 0) := by
    intro k hk
    have h := hm k hk
    have : c k * (m k * (pairv a b k y x * mi k)) = c k * pairv a b k y x * (m k * mi k) := by ring
    rw [this, h, mul_one]
    unfold pairv
    split <;> split <;> ring
  rw [sum_congr rfl this, sum_sub_distrib, sum_ite_eq' S b, sum_ite_eq' S a]
  simp [ha, hb]

theorem Kick.Does.linear {κ : Kick} {h h' : Bodies ℝ} (hd : κ.Does h h') (S : Finset Nat)
    (hm : ∀ k ∈ S, (h k).m * (h k).m_inv = 1) (ha : κ.a ∈ S) (hb : κ.b ∈ S) :
    linearMomentum S h' = linearMomentum S h ∧ biasMomentum S h' = biasMomentum S h := by
  have hx := sum_pairv S κ.a κ.b ha hb κ.j.x κ.j.x (fun k => (h k).m_inv) (fun k => (h k).m) hm (fun _ => 1)
  have hy := sum_pairv S κ.a κ.b ha hb κ.j.y κ.j.y (fun k => (h k).m_inv) (fun k => (h k).m) hm (fun _ => 1)
  have hbx := sum_pairv S κ.a κ.b ha hb κ.jb.x κ.jb.x (fun k => (h k).m_inv) (fun k => (h k).m) hm (fun _ => 1)
  have hby := sum_pairv S κ.a κ.b ha hb κ.jb.y κ.jb.y (fun k => (h k).m_inv) (fun k => (h k).m) hm (fun _ => 1)
  simp only [one_mul, sub_self] at hx hy hbx hby
  constructor
  · ext
    · simp only [linearMomentum, hd.vx, (hd.frozen _).m, mul_add, sum_add_distrib, hx, add_zero]
    · simp only [linearMomentum, hd.vy, (hd.frozen _).m, mul_add, sum_add_distrib, hy, add_zero]
  · ext
    · simp only [biasMomentum, hd.bx, (hd.frozen _).m, mul_add, sum_add_distrib, hbx, add_zero]
    · simp only [biasMomentum, hd.b_y, (hd.frozen _).m, mul_add, sum_add_distrib, hby, add_zero]

theorem Kick.Does.angular {κ : Kick} {h h' : Bodies ℝ} (hd : κ.Does h h') (S : Finset Nat)
    (hm : ∀ k ∈ S, FiniteMass (h k)) (ha : κ.a ∈ S) (hb : κ.b ∈ S) (hbal : κ.Balanced h) :
    angularMomentum S h' = angularMomentum S h := by
  have h1 := sum_pairv S κ.a κ.b ha hb κ.j.y κ.j.y (fun k => (h k).m_inv) (fun k => (h k).m)
    (fun k hk => (hm k hk).1) (fun k => (h k).p.x)
  have h2 := sum_pairv S κ.a κ.b ha hb κ.j.x κ.j.x (fun k => (h k).m_inv) (fun k => (h k).m)
    (fun k hk => (hm k hk).1) (fun k => (h k).p.y)
  have h3 := sum_pairv S κ.a κ.b ha hb κ.tb κ.ta (fun k => (h k).i_inv) (fun k => (h k).i)
    (fun k hk => (hm k hk).2) (fun _ => 1)
  have hb1 := hbal.1
  simp only [Vec.cross] at hb1
  have key : ∀ k ∈ S, ((h' k).m * (h' k).p.cross (h' k).v + (h' k).i * (h' k).w) =
      ((h k).m * (h k).p.cross (h k).v + (h k).i * (h k).w) +
      ((h k).p.x * ((h k).m * (pairv κ.a κ.b k κ.j.y κ.j.y * (h k).m_inv)) -
       (h k).p.y * ((h k).m * (pairv κ.a κ.b k κ.j.x κ.j.x * (h k).m_inv)) +
       1 * ((h k).i * (pairv κ.a κ.b k κ.ta κ.tb * (h k).i_inv))) := by
    intro k _
    simp only [Vec.cross, hd.vx, hd.vy, hd.w, (hd.frozen k).m, (hd.frozen k).p, (hd.frozen k).i]
    ring
  simp only [angularMomentum]
  rw [sum_congr rfl key, sum_add_distrib]
  have hz : ∑ k ∈ S, ((h k).p.x * ((h k).m * (pairv κ.a κ.b k κ.j.y κ.j.y * (h k).m_inv)) -
       (h k).p.y * ((h k).m * (pairv κ.a κ.b k κ.j.x κ.j.x * (h k).m_inv)) +
       1 * ((h k).i * (pairv κ.a κ.b k κ.ta κ.tb * (h k).i_inv))) = 0 := by
    rw [sum_add_distrib, sum_sub_distrib, h1, h2, h3]
    linarith
  rw [hz, add_zero]

theorem Kick.Does.apart {κ : Kick} {h h' : Bodies ℝ} (hd : κ.Does h h') (k : Nat) (ha : k ≠ κ.a)
    (hb : k ≠ κ.b) : h' k = h k := by
  have hp : ∀ x y, pairv κ.a κ.b k x y = 0 := by
    intro x y; simp [pairv, ha, hb]
  have f := hd.frozen k
  have ff := hd.f k
  have vx := hd.vx k; have vy := hd.vy k; have w := hd.w k
  have bx := hd.bx k; have b_y := hd.b_y k; have wb := hd.wb k
  simp only [hp, zero_mul, add_zero] at vx vy w bx b_y wb
  obtain ⟨m, m_inv, i, i_inv, cog, p, a, tr, sh, id⟩ := f
  cases hh1 : h k; cases hh2 : h' k
  simp only [hh1, hh2] at *
  simp only [Body.mk.injEq]
  exact ⟨m, m_inv, i, i_inv, cog, p, Vec.ext vx vy, ff.1, a, w, ff.2, tr, Vec.ext bx b_y, wb, sh, id⟩

theorem Kicks.linear {Q : Kick → Prop} {h h' : Bodies ℝ} (hk : Kicks Q h h') (S : Finset Nat)
    (hm : ∀ k ∈ S, (h k).m * (h k).m_inv = 1) (hq : ∀ κ, Q κ → Isolates S κ.a κ.b) :
    linearMomentum S h' = linearMomentum S h ∧ biasMomentum S h' = biasMomentum S h := by
  induction hk with
  | refl => exact ⟨rfl, rfl⟩
  | @step h1 h2 κ hk' q hd ih =>
    have hf := hk'.frozen
    by_cases ha : κ.a ∈ S
    · obtain ⟨e1, e2⟩ := hd.linear S (fun k hk => by rw [(hf k).m, (hf k).m_inv]; exact hm k hk)
        ha ((hq _ q).mp ha)
      exact ⟨e1.trans ih.1, e2.trans ih.2⟩
    · have hb : κ.b ∉ S := fun hb => ha ((hq _ q).mpr hb)
      have : ∀ k ∈ S, h2 k = h1 k := fun k hk =>
        hd.apart k (fun e => ha (e ▸ hk)) (fun e => hb (e ▸ hk))
      refine ⟨Eq.trans ?_ ih.1, Eq.trans ?_ ih.2⟩
      · ext <;> exact sum_congr rfl fun k hk => by rw [this k hk]
      · ext <;> exact sum_congr rfl fun k hk => by rw [this k hk]

theorem Kick.Does.angular_iso {κ : Kick} {h h' : Bodies ℝ} (hd : κ.Does h h') (S : Finset Nat)
    (hm : ∀ k ∈ S, FiniteMass (h k)) (hab : Isolates S κ.a κ.b) (hbal : κ.Balanced h) :
    angularMomentum S h' = angularMomentum S h := by
  by_cases ha : κ.a ∈ S
  · exact hd.angular S hm ha (hab.mp ha) hbal
  · have hb : κ.b ∉ S := fun hb => ha (hab.mpr hb)
    exact sum_congr rfl fun k hk => by
      rw [hd.apart k (fun e => ha (e ▸ hk)) (fun e => hb (e ▸ hk))]

theorem Kicks.angular {Q : Kick → Prop} {h h' : Bodies ℝ} (hk : Kicks Q h h') (S : Finset Nat)
    (hm : ∀ k ∈ S, FiniteMass (h k)) (hq : ∀ κ, Q κ → Isolates S κ.a κ.b ∧ κ.Balanced h) :
    angularMomentum S h' = angularMomentum S h := by
  induction hk with
  | refl => rfl
  | step hk' q hd ih =>
    have hf := hk'.frozen
    rw [hd.angular_iso S (fun k hk => ?_) (hq _ q).1
      ((balanced_congr hf _).mpr (hq _ q).2), ih]
    have := hm k hk
    simpa only [FiniteMass, (hf k).m, (hf k).m_inv, (hf k).i, (hf k).i_inv] using this

theorem pairv_mul_zero (x : ℝ) : x * 0 = 0 := mul_zero x

theorem Kicks.immovable {Q : Kick → Prop} {h h' : Bodies ℝ} (hk : Kicks Q h h') (k : Nat)
    (hi : Immovable (h k)) : h' k = h k := by
  induction hk with
  | refl => rfl
  | @step h1 h2 κ hk' q hd ih =>
    have hi1 : Immovable (h1 k) := by rw [ih]; exact hi
    rw [← ih]
    have f := hd.frozen k
    have ff := hd.f k
    have vx := hd.vx k; have vy := hd.vy k; have w := hd.w k
    have bx := hd.bx k; have b_y := hd.b_y k; have wb := hd.wb k
    rw [hi1.1, mul_zero, add_zero] at vx vy bx b_y
    rw [hi1.2, mul_zero, add_zero] at w wb
    obtain ⟨m, m_inv, i, i_inv, cog, p, a, tr, sh, id⟩ := f
    cases hh1 : h1 k; cases hh2 : h2 k
    simp only [hh1, hh2] at *
    simp only [Body.mk.injEq]
    exact ⟨m, m_inv, i, i_inv, cog, p, Vec.ext vx vy, ff.1, a, w, ff.2, tr, Vec.ext bx b_y, wb, sh, id⟩

/-- What one non-integrating action does: kicks on the bodies of its joint or arbiter. -/
def OpQ (s : Solver ℝ) (op : SolverOp ℝ) (κ : Kick) : Prop :=
  (∃ k, op.joint? = some k ∧ κ.a = (s.joints k).con.a ∧ κ.b = (s.joints k).con.b) ∨
  (∃ k, op.arb? = some k ∧ κ.a = (s.arbs k).a ∧ κ.b = (s.arbs k).b)

theorem step_kicks (s : Solver ℝ) (op : SolverOp ℝ) (hi : op.integrated? = none) :
    Kicks (OpQ s op) s.bodies (s.step op).bodies := by
  cases op with
  | arbPreStep k dt slop bias => exact .refl _
  | integrate k g d dt => simp [SolverOp.integrated?] at hi
  | jointPreStep k dt =>
    obtain ⟨⟨κ, ha, hb, hd, -⟩, -⟩ := jointPre_kick s.bodies (s.joints k) dt
    exact .one (Or.inl ⟨k, rfl, ha, hb⟩) hd
  | jointCached k c =>
    obtain ⟨κ, ha, hb, hd, -⟩ := jointCached_kick s.bodies (s.joints k) c
    exact .one (Or.inl ⟨k, rfl, ha, hb⟩) hd
  | jointApply k dt =>
    obtain ⟨κ, ha, hb, hd, -⟩ := jointApply_kick s.bodies (s.joints k) dt
    exact .one (Or.inl ⟨k, rfl, ha, hb⟩) hd
  | arbCached k c =>
    exact (arbCached_kicks s.bodies (s.arbs k) c).mono fun κ hq => Or.inr ⟨k, rfl, hq.1, hq.2.1⟩
  | arbApply k =>
    exact (arbApply_kicks s.bodies (s.arbs k)).1.mono fun κ hq => Or.inr ⟨k, rfl, hq.1, hq.2.1⟩

theorem step_con (s : Solver ℝ) (op : SolverOp ℝ) :
    (∀ k, ((s.step op).joints k).con = (s.joints k).con) ∧
    (∀ k, ((s.step op).arbs k).a = (s.arbs k).a ∧ ((s.step op).arbs k).b = (s.arbs k).b) := by
  cases op with
  | arbPreStep k dt slop bias =>
    refine ⟨fun _ => rfl, fun k' => ?_⟩
    simp only [Solver.step, Solver.setArb]; split
    · subst_vars; exact ⟨rfl, rfl⟩
    · exact ⟨rfl, rfl⟩
  | integrate k g d dt => exact ⟨fun _ => rfl, fun _ => ⟨rfl, rfl⟩⟩
  | jointPreStep k dt =>
    refine ⟨fun k' => ?_, fun _ => ⟨rfl, rfl⟩⟩
    simp only [Solver.step, Solver.setJoint]; split
    · subst_vars; exact (jointPre_kick _ _ _).2.1
    · rfl
  | jointCached k c =>
    refine ⟨fun k' => ?_, fun _ => ⟨rfl, rfl⟩⟩
    simp only [Solver.step, Solver.setJoint]; split
    · subst_vars; rw [jointCached_snd]
    · rfl
  | jointApply k dt =>
    refine ⟨fun k' => ?_, fun _ => ⟨rfl, rfl⟩⟩
    simp only [Solver.step, Solver.setJoint]; split
    · subst_vars; exact jointApply_con _ _ _
    · rfl
  | arbCached k c => exact ⟨fun _ => rfl, fun _ => ⟨rfl, rfl⟩⟩
  | arbApply k =>
    refine ⟨fun _ => rfl, fun k' => ?_⟩
    simp only [Solver.step, Solver.setArb]; split
    · subst_vars; exact ⟨rfl, rfl⟩
    · exact ⟨rfl, rfl⟩

/-- C15 (linear): any sequence of contact and joint actions, each between two bodies of a set `S` of
bodies of finite mass or between two others, leaves the total linear momentum of `S` unchanged (and the total momentum carried by
the bias velocities). -/
theorem C15_linear (s : Solver ℝ) (S : Finset Nat) (ops : List (SolverOp ℝ))
    (hm : ∀ k ∈ S, FiniteMass (s.bodies k))
    (hi : ∀ op ∈ ops, op.integrated? = none)
    (hj : ∀ op ∈ ops, ∀ k, op.joint? = some k → Isolates S (s.joints k).con.a (s.joints k).con.b)
    (ha : ∀ op ∈ ops, ∀ k, op.arb? = some k → Isolates S (s.arbs k).a (s.arbs k).b) :
    linearMomentum S (s.run ops).bodies = linearMomentum S s.bodies ∧
    biasMomentum S (s.run ops).bodies = biasMomentum S s.bodies := by
  induction ops generalizing s with
  | nil => exact ⟨rfl, rfl⟩
  | cons op ops ih =>
    have hk := step_kicks s op (hi op List.mem_cons_self)
    have hf := hk.frozen
    obtain ⟨c1, c2⟩ := step_con s op
    have e := hk.linear S (fun k hk => (hm k hk).1) (fun κ hq => by
      rcases hq with ⟨k, h1, h2, h3⟩ | ⟨k, h1, h2, h3⟩
      · rw [h2, h3]; exact hj op List.mem_cons_self k h1
      · rw [h2, h3]; exact ha op List.mem_cons_self k h1)
    have := ih (s.step op)
      (fun k hk => by
        have := hm k hk
        simpa only [FiniteMass, (hf k).m, (hf k).m_inv, (hf k).i, (hf k).i_inv] using this)
      (fun o ho => hi o (List.mem_cons_of_mem _ ho))
      (fun o ho k hk => by rw [c1]; exact hj o (List.mem_cons_of_mem _ ho) k hk)
      (fun o ho k hk => by rw [(c2 k).1, (c2 k).2]; exact ha o (List.mem_cons_of_mem _ ho) k hk)
    exact ⟨this.1.trans e.1, this.2.trans e.2⟩

theorem contactConserves_iff (h : Bodies ℝ) (arb : Arb ℝ) (c : Contact ℝ) :
    ContactConservesSpin h arb c → ContactCentral h arb c := by
  rintro (h1 | h1)
  · left; rw [gap, h1]; simp [Vec.sub]
  · exact Or.inr h1

theorem conserves_aligned (h : Bodies ℝ) (j : Joint ℝ) : ConservesSpin h j ↔ j.Aligned h := by
  cases j <;> rfl

theorem angular_run (S : Finset Nat) (ops : List (SolverOp ℝ)) : ∀ (D : List Nat) (s : Solver ℝ),
    (∀ k ∈ S, FiniteMass (s.bodies k)) →
    (∀ k, (s.bodies k).localToWorld (s.bodies k).cog = (s.bodies k).p) →
    (∀ op ∈ ops, op.integrated? = none) → Ordered D ops →
    (∀ k ∈ D, (s.joints k).Central s.bodies) →
    (∀ op ∈ ops, ∀ k, op.joint? = some k → Isolates S (s.joints k).con.a (s.joints k).con.b ∧
      (s.joints k).Aligned s.bodies) →
    (∀ op ∈ ops, ∀ k, op.arb? = some k → Isolates S (s.arbs k).a (s.arbs k).b ∧
      (s.arbs k).Central s.bodies) →
    angularMomentum S (s.run ops).bodies = angularMomentum S s.bodies := by
  induction ops with
  | nil => intros; rfl
  | cons op ops ih =>
    intro D s hm hp hi ho hD hj ha
    have hk := step_kicks s op (hi op List.mem_cons_self)
    have hf := hk.frozen
    obtain ⟨c1, c2⟩ := step_con s op
    have hm' : ∀ k ∈ S, FiniteMass ((s.step op).bodies k) := fun k hk => by
      have := hm k hk
      simpa only [FiniteMass, (hf k).m, (hf k).m_inv, (hf k).i, (hf k).i_inv] using this
    have hp' : ∀ k, ((s.step op).bodies k).localToWorld ((s.step op).bodies k).cog =
        ((s.step op).bodies k).p := fun k => by
      have := hp k
      simpa only [Body.localToWorld, (hf k).transform, (hf k).cog, (hf k).p] using this
    have hi' : ∀ o ∈ ops, o.integrated? = none := fun o ho => hi o (List.mem_cons_of_mem _ ho)
    -- alignment of the joints is not changed
    have hal : ∀ k, ((s.step op).joints k).Aligned (s.step op).bodies ↔ (s.joints k).Aligned s.bodies := by
      intro k
      rw [aligned_congr hf]
      cases op with
      | jointPreStep k' dt =>
        simp only [Solver.step, Solver.setJoint]; split
        · subst_vars; exact jointPre_aligned _ _ _ _
        · rfl
      | jointCached k' dt =>
        simp only [Solver.step, Solver.setJoint]; split
        · subst_vars; rw [jointCached_snd]
        · rfl
      | jointApply k' dt =>
        simp only [Solver.step, Solver.setJoint]; split
        · subst_vars; exact jointApply_aligned _ _ _ _
        · rfl
      | _ => rfl
    have hj' : ∀ o ∈ ops, ∀ k, o.joint? = some k → Isolates S ((s.step op).joints k).con.a
        ((s.step op).joints k).con.b ∧ ((s.step op).joints k).Aligned (s.step op).bodies := by
      intro o ho' k hk'
      rw [c1, hal]; exact hj o (List.mem_cons_of_mem _ ho') k hk'
    have hcen : ∀ k, (s.arbs k).Central s.bodies → ((s.step op).arbs k).Central (s.step op).bodies := by
      intro k hc
      rw [arbCentral_congr hf]
      cases op with
      | arbPreStep k' dt slop bias =>
        simp only [Solver.step, Solver.setArb]; split
        · subst_vars; exact arbPre_central _ _ _ _ _ hc
        · exact hc
      | arbApply k' =>
        simp only [Solver.step, Solver.setArb]; split
        · subst_vars; exact (arbApply_kicks _ _).2.2.2 hc
        · exact hc
      | _ => exact hc
    have ha' : ∀ o ∈ ops, ∀ k, o.arb? = some k → Isolates S ((s.step op).arbs k).a
        ((s.step op).arbs k).b ∧ ((s.step op).arbs k).Central (s.step op).bodies := by
      intro o ho' k hk'
      obtain ⟨h1, h3⟩ := ha o (List.mem_cons_of_mem _ ho') k hk'
      rw [(c2 k).1, (c2 k).2]
      exact ⟨h1, hcen k h3⟩
    -- one step
    suffices hstep : angularMomentum S (s.step op).bodies = angularMomentum S s.bodies ∧
        ∃ D', Ordered D' ops ∧ ∀ k ∈ D', ((s.step op).joints k).Central (s.step op).bodies by
      obtain ⟨e, D', o', d'⟩ := hstep
      exact (ih D' (s.step op) hm' hp' hi' o' d' hj' ha').trans e
    have hself := hj op List.mem_cons_self
    have haself := ha op List.mem_cons_self
    cases op with
    | integrate k g d dt => simp [SolverOp.integrated?] at hi
    | arbPreStep k dt slop bias => exact ⟨rfl, D, ho, hD⟩
    | arbCached k c =>
      obtain ⟨h1, h3⟩ := haself k rfl
      refine ⟨(arbCached_kicks s.bodies (s.arbs k) c).angular S hm ?_, D, ho, ?_⟩
      · intro κ hq; exact ⟨by rw [hq.1, hq.2.1]; exact h1, hq.2.2 h3⟩
      · intro k hk; rw [central_congr hf]; exact hD k hk
    | arbApply k =>
      obtain ⟨h1, h3⟩ := haself k rfl
      refine ⟨(arbApply_kicks s.bodies (s.arbs k)).1.angular S hm ?_, D, ho, ?_⟩
      · intro κ hq; exact ⟨by rw [hq.1, hq.2.1]; exact h1, hq.2.2 h3⟩
      · intro k hk; rw [central_congr hf]; exact hD k hk
    | jointPreStep k dt =>
      obtain ⟨h1, h3⟩ := hself k rfl
      obtain ⟨⟨κ, ka, kb, kd, kbal⟩, -, kc⟩ := jointPre_kick s.bodies (s.joints k) dt
      refine ⟨kd.angular_iso S hm (by rw [ka, kb]; exact h1) kbal, k :: D, ho, ?_⟩
      intro k' hk'
      rw [central_congr hf]
      simp only [Solver.step, Solver.setJoint]; split
      · subst_vars; exact kc hp h3
      · rcases List.mem_cons.mp hk' with rfl | h
        · exact absurd rfl ‹_›
        · exact hD k' h
    | jointCached k c =>
      obtain ⟨h1, h3⟩ := hself k rfl
      obtain ⟨κ, ka, kb, kd, kbal⟩ := jointCached_kick s.bodies (s.joints k) c
      refine ⟨kd.angular_iso S hm (by rw [ka, kb]; exact h1) (kbal (hD k ho.1)), D, ho.2, ?_⟩
      intro k' hk'
      rw [central_congr hf]
      simp only [Solver.step, Solver.setJoint]; split
      · subst_vars; rw [jointCached_snd]; exact hD _ hk'
      · exact hD k' hk'
    | jointApply k dt =>
      obtain ⟨h1, h3⟩ := hself k rfl
      obtain ⟨κ, ka, kb, kd, kbal⟩ := jointApply_kick s.bodies (s.joints k) dt
      refine ⟨kd.angular_iso S hm (by rw [ka, kb]; exact h1) (kbal (hD k ho.1)), D, ho.2, ?_⟩
      intro k' hk'
      rw [central_congr hf]
      simp only [Solver.step, Solver.setJoint]; split
      · subst_vars; rw [jointApply_central]; exact hD _ hk'
      · exact hD k' hk'

/-- C15 (angular): any sequence of contact and joint actions on finite-mass bodies leaves the total
angular momentum about the origin unchanged, provided every joint is prepared before use, every
joint and contact involved has the geometry of `ConservesSpin`/`ContactConservesSpin`, and the bodies'
transforms are consistent (`C13_rigid`). -/
theorem C15_angular (s : Solver ℝ) (S : Finset Nat) (ops : List (SolverOp ℝ))
    (hm : ∀ k ∈ S, FiniteMass (s.bodies k))
    (hp : ∀ k, (s.bodies k).localToWorld (s.bodies k).cog = (s.bodies k).p)
    (hi : ∀ op ∈ ops, op.integrated? = none) (ho : Ordered [] ops)
    (hj : ∀ op ∈ ops, ∀ k, op.joint? = some k → Isolates S (s.joints k).con.a (s.joints k).con.b ∧
      ConservesSpin s.bodies (s.joints k))
    (ha : ∀ op ∈ ops, ∀ k, op.arb? = some k → Isolates S (s.arbs k).a (s.arbs k).b ∧
      ∀ c ∈ (s.arbs k).contacts, ContactConservesSpin s.bodies (s.arbs k) c) :
    angularMomentum S (s.run ops).bodies = angularMomentum S s.bodies := by
  refine angular_run S ops [] s hm hp hi ho (by simp) ?_ ?_
  · intro op hop k hk
    obtain ⟨h1, h3⟩ := hj op hop k hk
    exact ⟨h1, (conserves_aligned _ _).mp h3⟩
  · intro op hop k hk
    obtain ⟨h1, h3⟩ := ha op hop k hk
    exact ⟨h1, fun c hc => contactConserves_iff _ _ _ (h3 c hc)⟩

/-! ### The whole solver phase of `Step` -/

theorem solver_run_append (s : Solver ℝ) (a b : List (SolverOp ℝ)) : s.run (a ++ b) = (s.run a).run b :=
  List.foldl_append ..

theorem run_frozen (s : Solver ℝ) (ops : List (SolverOp ℝ)) (hi : ∀ op ∈ ops, op.integrated? = none) :
    ∀ k, Frozen (s.bodies k) ((s.run ops).bodies k) ∧ ((s.run ops).bodies k).f = (s.bodies k).f := by
  induction ops generalizing s with
  | nil => exact fun k => ⟨Frozen.refl _, rfl⟩
  | cons op ops ih =>
    intro k
    have hk := step_kicks s op (hi op List.mem_cons_self)
    have h2 := ih (s.step op) (fun o ho => hi o (List.mem_cons_of_mem _ ho)) k
    have hff : ∀ {Q : Kick → Prop} {h h' : Bodies ℝ}, Kicks Q h h' → (h' k).f = (h k).f := by
      intro Q h h' hk
      induction hk with
      | refl => rfl
      | step _ _ hd ih => rw [(hd.f k).1, ih]
    exact ⟨(hk.frozen k).trans h2.1, h2.2.trans (hff hk)⟩

theorem run_con (s : Solver ℝ) (ops : List (SolverOp ℝ)) :
    (∀ k, ((s.run ops).joints k).con = (s.joints k).con) ∧
    (∀ k, ((s.run ops).arbs k).a = (s.arbs k).a ∧ ((s.run ops).arbs k).b = (s.arbs k).b) := by
  induction ops generalizing s with
  | nil => exact ⟨fun _ => rfl, fun _ => ⟨rfl, rfl⟩⟩
  | cons op ops ih =>
    obtain ⟨a1, a2⟩ := step_con s op
    obtain ⟨b1, b2⟩ := ih (s.step op)
    refine ⟨fun k => (b1 k).trans (a1 k), fun k => ⟨(b2 k).1.trans (a2 k).1, (b2 k).2.trans (a2 k).2⟩⟩

theorem integrate_momentum (S : Finset Nat) (g : Vec ℝ) (dt : ℝ) (dyn : List Nat) (hn : dyn.Nodup) :
    ∀ s : Solver ℝ, (∀ k ∈ dyn, k ∈ S ∧ (s.bodies k).type = .dynamic) →
    (∀ k ∈ S, FiniteMass (s.bodies k)) →
    let s' := s.run (dyn.map fun k => SolverOp.integrate k g 1 dt)
    linearMomentum S s'.bodies =
      (linearMomentum S s.bodies).add
        ⟨(dyn.map fun k => ((s.bodies k).m * g.x + (s.bodies k).f.x) * dt).sum,
         (dyn.map fun k => ((s.bodies k).m * g.y + (s.bodies k).f.y) * dt).sum⟩ ∧
    s'.joints = s.joints ∧ s'.arbs = s.arbs ∧
    (∀ k, Frozen (s.bodies k) (s'.bodies k)) := by
  induction dyn with
  | nil =>
    intro s _ _
    simp only [List.map_nil, List.sum_nil, Solver.run, List.foldl_nil, Vec.add, add_zero, true_and]
    exact fun k => Frozen.refl _
  | cons d dyn ih =>
    intro s hd hm
    obtain ⟨hdn, hn⟩ := List.nodup_cons.mp hn
    obtain ⟨hdS, hdt⟩ := hd d List.mem_cons_self
    have hnk : (s.bodies d).type ≠ .kinematic := by rw [hdt]; simp
    set s1 := s.step (.integrate d g 1 dt) with hs1
    have hb : s1.bodies = s.bodies.set d ((s.bodies d).updateVelocity g 1 dt) := rfl
    have hfr : ∀ k, Frozen (s.bodies k) (s1.bodies k) := by
      intro k
      rw [hb]
      unfold Bodies.set
      split
      · subst_vars
        simp only [Body.updateVelocity, if_neg hnk]
        exact ⟨rfl, rfl, rfl, rfl, rfl, rfl, rfl, rfl, rfl, rfl⟩
      · exact Frozen.refl _
    have hother : ∀ k, k ≠ d → s1.bodies k = s.bodies k := by
      intro k hk; rw [hb]; simp [Bodies.set, hk]
    obtain ⟨e1, e2, e3, e4⟩ := ih hn s1
      (fun k hk => by
        have hne : k ≠ d := fun h => hdn (h ▸ hk)
        rw [hother k hne]; exact hd k (List.mem_cons_of_mem _ hk))
      (fun k hk => by
        have := hm k hk
        simpa only [FiniteMass, (hfr k).m, (hfr k).m_inv, (hfr k).i, (hfr k).i_inv] using this)
    have hlin : linearMomentum S s1.bodies = (linearMomentum S s.bodies).add
        ⟨((s.bodies d).m * g.x + (s.bodies d).f.x) * dt, ((s.bodies d).m * g.y + (s.bodies d).f.y) * dt⟩ := by
      have hmm := (hm d hdS).1
      have hvx : (s1.bodies d).v.x = (s.bodies d).v.x + (g.x + (s.bodies d).f.x * (s.bodies d).m_inv) * dt := by
        rw [hb]; simp [Bodies.set, Body.updateVelocity, hnk, Vec.add, Vec.mult]
      have hvy : (s1.bodies d).v.y = (s.bodies d).v.y + (g.y + (s.bodies d).f.y * (s.bodies d).m_inv) * dt := by
        rw [hb]; simp [Bodies.set, Body.updateVelocity, hnk, Vec.add, Vec.mult]
      ext
      · simp only [linearMomentum, Vec.add]
        rw [← add_sum_erase S _ hdS, ← add_sum_erase S (fun k => (s.bodies k).m * (s.bodies k).v.x) hdS,
          sum_congr rfl (fun k hk => by rw [hother k (ne_of_mem_erase hk)]), hvx, (hfr d).m]
        linear_combination (s.bodies d).f.x * dt * hmm
      · simp only [linearMomentum, Vec.add]
        rw [← add_sum_erase S _ hdS, ← add_sum_erase S (fun k => (s.bodies k).m * (s.bodies k).v.y) hdS,
          sum_congr rfl (fun k hk => by rw [hother k (ne_of_mem_erase hk)]), hvy, (hfr d).m]
        linear_combination (s.bodies d).f.y * dt * hmm
    have hsums : ∀ φ : Body ℝ → ℝ, (dyn.map fun k => φ (s1.bodies k)) = dyn.map fun k => φ (s.bodies k) := by
      intro φ
      apply List.map_congr_left
      intro k hk
      rw [hother k (fun h => hdn (h ▸ hk))]
    refine ⟨?_, e2, e3, fun k => (hfr k).trans (e4 k)⟩
    show linearMomentum S (s1.run _).bodies = _
    rw [e1, hlin, hsums (fun b => (b.m * g.x + b.f.x) * dt), hsums (fun b => (b.m * g.y + b.f.y) * dt)]
    simp only [Vec.add, List.map_cons, List.sum_cons]
    ext <;> simp <;> ring

/-- C15 for a whole solver phase of `Step` (any number of iterations, contacts, joints; no damping):
the linear momentum of the bodies changes exactly by gravity and the user's forces. -/
theorem C15_step (s : Solver ℝ) (S : Finset Nat) (arbs joints dyn : List Nat) (iterations : Nat)
    (dt prev_dt slop cb : ℝ) (g : Vec ℝ) (hdyn : dyn.Nodup)
    (hm : ∀ k ∈ S, FiniteMass (s.bodies k))
    (hd : ∀ k ∈ dyn, k ∈ S ∧ (s.bodies k).type = .dynamic)
    (hj : ∀ k ∈ joints, Isolates S (s.joints k).con.a (s.joints k).con.b)
    (ha : ∀ k ∈ arbs, Isolates S (s.arbs k).a (s.arbs k).b) :
    linearMomentum S (s.run (Solver.stepProgram arbs joints dyn iterations dt prev_dt slop cb 1 g)).bodies =
      (linearMomentum S s.bodies).add
        ⟨(dyn.map fun k => ((s.bodies k).m * g.x + (s.bodies k).f.x) * dt).sum,
         (dyn.map fun k => ((s.bodies k).m * g.y + (s.bodies k).f.y) * dt).sum⟩ := by
  simp only [Solver.stepProgram, pow_real, Real.one_rpow, List.append_assoc]
  rw [← List.append_assoc, solver_run_append, solver_run_append]
  generalize hA : arbs.map (fun k => SolverOp.arbPreStep k dt slop (1 - cb ^ dt)) ++
    joints.map (fun k => SolverOp.jointPreStep k dt) = A
  generalize hC : arbs.map (fun k => SolverOp.arbCached k (if prev_dt ≠ 0 then dt / prev_dt else 0)) ++
    (joints.map (fun k => SolverOp.jointCached k (if prev_dt ≠ 0 then dt / prev_dt else 0)) ++
    (List.replicate iterations (arbs.map (fun k => SolverOp.arbApply k) ++
      joints.map (fun k => SolverOp.jointApply k dt))).flatten) = C
  have hAp : ∀ op ∈ A, op.integrated? = none ∧ (∀ k, op.joint? = some k → k ∈ joints) ∧
      (∀ k, op.arb? = some k → k ∈ arbs) := by
    intro op hop
    rw [← hA] at hop
    rcases List.mem_append.mp hop with h | h <;> obtain ⟨k, hk, rfl⟩ := List.mem_map.mp h <;>
      simp [SolverOp.integrated?, SolverOp.joint?, SolverOp.arb?, hk]
  have hCp : ∀ op ∈ C, op.integrated? = none ∧ (∀ k, op.joint? = some k → k ∈ joints) ∧
      (∀ k, op.arb? = some k → k ∈ arbs) := by
    intro op hop
    rw [← hC] at hop
    rcases List.mem_append.mp hop with h | h
    · obtain ⟨k, hk, rfl⟩ := List.mem_map.mp h
      simp [SolverOp.integrated?, SolverOp.joint?, SolverOp.arb?, hk]
    · rcases List.mem_append.mp h with h | h
      · obtain ⟨k, hk, rfl⟩ := List.mem_map.mp h
        simp [SolverOp.integrated?, SolverOp.joint?, SolverOp.arb?, hk]
      · obtain ⟨l, hl, hop⟩ := List.mem_flatten.mp h
        obtain ⟨-, rfl⟩ := List.mem_replicate.mp hl
        rcases List.mem_append.mp hop with h | h <;> obtain ⟨k, hk, rfl⟩ := List.mem_map.mp h <;>
          simp [SolverOp.integrated?, SolverOp.joint?, SolverOp.arb?, hk]
  have fin : ∀ t : Solver ℝ, (∀ k, Frozen (s.bodies k) (t.bodies k)) → ∀ k ∈ S, FiniteMass (t.bodies k) := by
    intro t hf k hk
    have := hm k hk
    simpa only [FiniteMass, (hf k).m, (hf k).m_inv, (hf k).i, (hf k).i_inv] using this
  obtain ⟨a1, -⟩ := C15_linear s S A hm (fun op hop => (hAp op hop).1)
    (fun op hop k hk => hj k ((hAp op hop).2.1 k hk)) (fun op hop k hk => ha k ((hAp op hop).2.2 k hk))
  have fA := run_frozen s A (fun op hop => (hAp op hop).1)
  obtain ⟨cA1, cA2⟩ := run_con s A
  set sA := s.run A
  obtain ⟨b1, b2, b3, b4⟩ := integrate_momentum S g dt dyn hdyn sA
    (fun k hk => by
      refine ⟨(hd k hk).1, ?_⟩
      have := (hd k hk).2
      simpa only [Body.type, (fA k).1.m, (fA k).1.idle] using this)
    (fin sA fun k => (fA k).1)
  set sB := sA.run (dyn.map fun k => SolverOp.integrate k g 1 dt)
  obtain ⟨d1, -⟩ := C15_linear sB S C (fin sB fun k => (fA k).1.trans (b4 k)) (fun op hop => (hCp op hop).1)
    (fun op hop k hk => by rw [b2, cA1]; exact hj k ((hCp op hop).2.1 k hk))
    (fun op hop k hk => by rw [b3, (cA2 k).1, (cA2 k).2]; exact ha k ((hCp op hop).2.2 k hk))
  rw [d1, b1, a1]
  simp only [(fA _).1.m, (fA _).2]

/-! ### C16 -/

/-- C16: no sequence of solver actions changes anything of an immovable body (static bodies are
never integrated; kinematic ones may be). In particular gravity, damping and forces do not change a
kinematic body's velocity. -/
theorem C16_immovable (s : Solver ℝ) (ops : List (SolverOp ℝ)) (k : Nat) (hi : Immovable (s.bodies k))
    (hk : ∀ op ∈ ops, op.integrated? = some k → (s.bodies k).type = .kinematic) :
    (s.run ops).bodies k = s.bodies k := by
  induction ops generalizing s with
  | nil => rfl
  | cons op ops ih =>
    have h1 : (s.step op).bodies k = s.bodies k := by
      cases hop : op.integrated? with
      | none => exact (step_kicks s op hop).immovable k hi
      | some k' =>
        cases op with
        | integrate q g d dt =>
          simp only [Solver.step, Bodies.set]
          split
          · subst_vars
            have := hk _ List.mem_cons_self rfl
            simp [Body.updateVelocity, this]
          · rfl
        | _ => simp [SolverOp.integrated?] at hop
    have := ih (s.step op) (by rw [h1]; exact hi)
      (fun o ho hs => by rw [h1]; exact hk o (List.mem_cons_of_mem _ ho) hs)
    exact this.trans h1

/-- The user calls that give a body finite mass: the explicit mass setters, and `SetType`. -/
def Body.Op.setsInertia : Body.Op → Prop
  | .setMass _ | .setMoment _ | .setType _ => True
  | _ => False

/-- C16: a body made static or kinematic by `SetType` stays immovable, and of that type, under every
sequence of calls other than `SetMass`, `SetMoment` and `SetType`. -/
theorem C16_type_immovable (b : Body ℝ) (t : BodyType) (ht : t ≠ .dynamic) (hb : b.type ≠ t)
    (ops : List Body.Op) (hops : ∀ op ∈ ops, ¬ op.setsInertia) :
    let b' := ops.foldl Body.exec (b.setType t)
    Immovable b' ∧ b'.type = t := by
  intro b'
  -- invariant
  let I : Body ℝ → Prop := fun x => x.m_inv = 0 ∧ x.i_inv = 0 ∧ x.m = maxFloat ∧
    x.idle = (if t = .static then maxFloat else 0)
  have ty : ∀ x : Body ℝ, I x → x.type = t := by
    rintro x ⟨-, -, hm, hid⟩
    cases t with
    | dynamic => exact absurd rfl ht
    | static => simp only [if_true] at hid; simp [Body.type, hid]
    | kinematic =>
      simp only [reduceCtorEq, if_false] at hid
      simp [Body.type, hid, hm, maxFloat_pos.ne]
  have base : I (b.setType t) := by
    simp only [I, Body.setType, if_neg hb, if_neg ht]
    refine ⟨trivial, trivial, trivial, ?_⟩
    split <;> simp_all
  have act : ∀ x : Body ℝ, I x → x.activate = x := by
    intro x hx
    simp only [Body.activate, ty x hx, if_neg ht]
  have acc : ∀ x : Body ℝ, I x → x.accumulateMass = x := by
    intro x hx
    simp only [Body.accumulateMass, ty x hx]
    rw [if_pos ht]
  have stp : ∀ x : Body ℝ, I x → ∀ op : Body.Op, ¬ op.setsInertia → I (x.exec op) := by
    intro x hx op hop
    have ha := act x hx
    cases op with
    | setMass m => exact absurd trivial hop
    | setMoment m => exact absurd trivial hop
    | setType m => exact absurd trivial hop
    | setPosition p => simp only [Body.exec, Body.setPosition, ha, Body.setTransform]; exact hx
    | setAngle p => simp only [Body.exec, Body.setAngle, ha, Body.setTransform]; exact hx
    | addShape s =>
      have : I { x with shapes := x.shapes ++ [s] } := hx
      simp only [Body.exec, Body.addShape]
      split
      · rw [acc _ this]; exact this
      · exact this
    | removeShape s =>
      have : I { x with shapes := Body.swapRemove x.shapes s.id } := hx
      simp only [Body.exec, Body.removeShape]
      split
      · rw [acc _ this]; exact this
      · exact this
    | setShapeMass id m =>
      simp only [Body.exec, Body.setShapeMass, ha]
      rw [acc]
      · exact hx
      · exact hx
    | updateVelocity g d dt =>
      simp only [Body.exec, Body.updateVelocity]
      split
      · exact hx
      · exact hx
    | updatePosition dt => exact hx
    | activate => simp only [Body.exec, ha]; exact hx
    | setVelocity v => simp only [Body.exec, Body.setVelocity, ha]; exact hx
    | setAngularVelocity v => simp only [Body.exec, Body.setAngularVelocity, ha]; exact hx
    | setForce v => simp only [Body.exec, Body.setForce, ha]; exact hx
    | setTorque v => simp only [Body.exec, Body.setTorque, ha]; exact hx
    | applyForceWorld f p => simp only [Body.exec, Body.applyForceAtWorldPoint, ha]; exact hx
    | applyForceLocal f p =>
      simp only [Body.exec, Body.applyForceAtLocalPoint, Body.applyForceAtWorldPoint, ha]; exact hx
    | applyImpulseWorld f p =>
      simp only [Body.exec, Body.applyImpulseAtWorldPoint, Body.applyImpulse, ha]; exact hx
    | applyImpulseLocal f p =>
      simp only [Body.exec, Body.applyImpulseAtLocalPoint, Body.applyImpulseAtWorldPoint,
        Body.applyImpulse, ha]; exact hx
    | solver v w vb wb => exact hx
  have all : I b' := by
    show I (ops.foldl Body.exec (b.setType t))
    generalize b.setType t = x at base
    induction ops generalizing x with
    | nil => exact base
    | cons op ops ih =>
      exact ih (fun o ho => hops o (List.mem_cons_of_mem _ ho)) _
        (stp x base op (hops op List.mem_cons_self))
  exact ⟨⟨all.1, all.2.1⟩, ty _ all⟩

/-- C16 fails after `SetMass`: a static body whose mass is set is still reported as static but
impulses move it (the C library asserts that the body is dynamic; the Go port does not). -/
theorem C16_setMass_unfixes_static :
    let b := (Body.newStatic (F := ℝ)).setMass 1
    b.type = .static ∧ ¬ Immovable b ∧
    ((b.applyImpulse ⟨1, 0⟩ ⟨0, 0⟩).v = ⟨1, 0⟩) := by
  have hne : ¬ ((0 : ℝ) = maxFloat) := maxFloat_pos.ne
  simp [Body.newStatic, Body.new, Body.setType, Body.setMass, Body.setMoment, Body.setAngle,
    Body.setTransform, Body.activate, Body.type, hne, Immovable, Body.applyImpulse, Body.zeroV, Vec.cross]

/-! ### Non-vacuity: two moving unit bodies, one motor, one contact -/

/-- A unit body at `p` moving with velocity `v`. -/
noncomputable def exBody (p v : Vec ℝ) : Body ℝ :=
  { (Body.new (1 : ℝ) 1).setPosition p with p := p, v := v, transform := ⟨1, 0, 0, 1, p.x, p.y⟩ }

/-- Bodies 0 and 1 approach each other; the contact point is half-way between them, with friction. -/
noncomputable def exSolver : Solver ℝ where
  bodies k := if k = 0 then exBody ⟨0, 0⟩ ⟨1, 0⟩ else exBody ⟨2, 0⟩ ⟨-1, 1⟩
  joints _ := .motor { a := 0, b := 1, maxForce := 10, errorBias := 1, maxBias := 10, rate := 3, iSum := 0, jAcc := 0 }
  arbs _ := { e := 1, u := 1, surface_vr := ⟨0, 0⟩, a := 0, b := 1, n := ⟨1, 0⟩, first := false,
              contacts := [⟨⟨1, 0⟩, ⟨-1, 0⟩, 0, 0, 0, 2, 1, 0, 0, 0⟩] }

/-- A program with every kind of joint and contact action. -/
def exProgram : List (SolverOp ℝ) :=
  [.arbPreStep 0 1 0 0, .jointPreStep 0 1, .arbCached 0 1, .jointCached 0 1, .arbApply 0, .jointApply 0 1,
   .arbApply 0, .jointApply 0 1]

theorem exSolver_finite : ∀ k ∈ ({0, 1} : Finset Nat), FiniteMass (exSolver.bodies k) := by
  intro k hk
  have h : (exSolver.bodies k).m = 1 ∧ (exSolver.bodies k).m_inv = 1 ∧ (exSolver.bodies k).i = 1 ∧
      (exSolver.bodies k).i_inv = 1 := by
    simp only [exSolver]
    split <;> simp [exBody, Body.new, Body.setPosition, Body.setMass, Body.setMoment, Body.setAngle,
      Body.setTransform, Body.activate, Body.type, one_lt_maxFloat.ne, maxFloat_pos.ne, Body.zeroV]
  simp [FiniteMass, h.1, h.2.1, h.2.2.1, h.2.2.2]

theorem exBody_cog (p v : Vec ℝ) : (exBody p v).cog = ⟨0, 0⟩ := by
  simp [exBody, Body.new, Body.setPosition, Body.setMass, Body.setMoment, Body.setAngle,
      Body.setTransform, Body.activate, Body.type, one_lt_maxFloat.ne, maxFloat_pos.ne, Body.zeroV]

/-- The hypotheses of `C15_linear` and `C15_angular` are met, and the contact's stored impulse
really changes the velocities. -/
example : linearMomentum {0, 1} (exSolver.run exProgram).bodies = linearMomentum {0, 1} exSolver.bodies ∧
    angularMomentum {0, 1} (exSolver.run exProgram).bodies = angularMomentum {0, 1} exSolver.bodies ∧
    ((exSolver.step (.arbCached 0 1)).bodies 1).v = ⟨1, 2⟩ := by
  refine ⟨(C15_linear exSolver {0, 1} exProgram exSolver_finite ?_ ?_ ?_).1,
    C15_angular exSolver {0, 1} exProgram exSolver_finite ?_ ?_ ?_ ?_ ?_, ?_⟩
  · simp [exProgram, SolverOp.integrated?]
  · simp [exProgram, exSolver, Joint.con, Isolates]
  · simp [exProgram, exSolver, Isolates]
  · intro k
    have : ∀ p v, (exBody p v).localToWorld (exBody p v).cog = (exBody p v).p := by
      intro p v
      rw [exBody_cog]
      simp [exBody, Body.localToWorld, Transform.point]
    simp only [exSolver]
    split <;> exact this _ _
  · simp [exProgram, SolverOp.integrated?]
  · simp [exProgram, Ordered]
  · simp [exProgram, exSolver, Joint.con, ConservesSpin, Isolates]
  · intro op _ k _
    refine ⟨by simp [exSolver, Isolates], ?_⟩
    simp only [exSolver, List.mem_singleton, forall_eq, if_true]
    left
    norm_num [exBody, Vec.add]
  · norm_num [Solver.step, Arb.applyCached, applyImpulses, exSolver, Bodies.set, Vec.rotate, Vec.mult,
      exBody, Body.new, Body.setPosition, Body.setMass, Body.setMoment, Body.setAngle,
      Body.setTransform, Body.activate, Body.type, one_lt_maxFloat.ne, maxFloat_pos.ne, Body.zeroV]

/-- A gear with ratio other than 1 does not conserve the sum of the spins (so `ConservesSpin`
cannot be dropped). -/
example : ∃ (h : Bodies ℝ) (j : GearJoint ℝ), (∀ k, FiniteMass (h k)) ∧ j.a ≠ j.b ∧
    angularMomentum {0, 1} (j.applyCached h 1).1 ≠ angularMomentum {0, 1} h := by
  refine ⟨fun _ => exBody ⟨0, 0⟩ ⟨0, 0⟩, { GearJoint.new 0 1 0 2 with jAcc := 1 }, ?_, ?_, ?_⟩
  · intro k
    simpa [exSolver] using (show FiniteMass (exBody ⟨0, 0⟩ ⟨0, 0⟩) by
      simp [FiniteMass, exBody, Body.new, Body.setPosition, Body.setMass, Body.setMoment, Body.setAngle,
        Body.setTransform, Body.activate, Body.type, one_lt_maxFloat.ne, maxFloat_pos.ne, Body.zeroV])
  · simp [GearJoint.new]
  · norm_num [GearJoint.new, GearJoint.applyCached, applySpin, angularMomentum, Bodies.set, Vec.cross,
      exBody, Body.new, Body.setPosition, Body.setMass, Body.setMoment, Body.setAngle,
        Body.setTransform, Body.activate, Body.type, one_lt_maxFloat.ne, maxFloat_pos.ne, Body.zeroV]

/-- `C16_type_immovable` and `C16_immovable` on a concrete static body. -/
example :
    let b := ((Body.new (1 : ℝ) 1).setType .static)
    let b' := [Body.Op.setPosition ⟨3, 4⟩, .applyImpulseWorld ⟨1, 1⟩ ⟨0, 0⟩].foldl Body.exec b
    Immovable b' ∧ b'.type = .static :=
  C16_type_immovable (Body.new (1 : ℝ) 1) .static (by decide)
    (by simp [Body.new, Body.setMass, Body.setMoment, Body.setAngle,
        Body.setTransform, Body.activate, Body.type, one_lt_maxFloat.ne, maxFloat_pos.ne, Body.zeroV]) _
    (by simp [Body.Op.setsInertia])

end CP
