import Verif.Spec.Bounce
import Verif.Proofs.Energy5

/-! # Two bodies that touch only each other: the impulse between them -/

namespace CP
open GoFloat

/-- Moving bodies does not change what they weigh. -/
theorem seen_inv (m : Motion ℝ) (t : Tick ℝ) (x : Nat) : (m.seen t x).m_inv = (m.bodies x).m_inv ∧ (m.seen t x).i_inv = (m.bodies x).i_inv := by
  have : ∀ (l : List Nat) (h : Bodies ℝ), (Motion.move h t.dt l x).m_inv = (h x).m_inv ∧ (Motion.move h t.dt l x).i_inv = (h x).i_inv := by
    intro l
    induction l with
    | nil => exact fun h => ⟨rfl, rfl⟩
    | cons k l ih =>
      intro h
      have e : Motion.move h t.dt (k :: l) = Motion.move (h.set k ((h k).updatePosition t.dt)) t.dt l := rfl
      obtain ⟨h1, h2⟩ := ih (h.set k ((h k).updatePosition t.dt))
      rw [e, h1, h2]
      by_cases hk : x = k
      · subst hk
        simp only [Bodies.set, if_true]
        exact ⟨rfl, rfl⟩
      · simp only [Bodies.set, if_neg hk, and_self]
  exact this t.movers m.bodies

/-- For bodies without other contacts and joints, or that cannot be moved: an action that is not its own and does not integrate changes nothing for them. -/
theorem step_elsewhere {m : Motion ℝ} {t : Tick ℝ} {i : Nat} {s : Solver ℝ} (hS : Stays m (m.seen t) s)
    (con : ∀ k, (s.arbs k).a = (t.contact k).a ∧ (s.arbs k).b = (t.contact k).b) (hl : ∀ x, x = (t.contact i).a ∨ x = (t.contact i).b → Immovable (m.bodies x) ∨ t.Lone m i x)
    (op : SolverOp ℝ) (hint : op.integrated? = none) (hj : ∀ k, op.joint? = some k → k ∈ t.joints) (ha : ∀ k, op.arb? = some k → k ∈ t.arbs)
    (hi : op.arb? ≠ some i) :
    (s.step op).arbs i = s.arbs i ∧ ∀ x, x = (t.contact i).a ∨ x = (t.contact i).b → (s.step op).bodies x = s.bodies x := by
  constructor
  · cases op with
    | arbPreStep k dt sl bc =>
      have : i ≠ k := fun e => hi (by rw [e]; rfl)
      simp only [Solver.step, Solver.setArb, if_neg this]
    | arbApply k =>
      have : i ≠ k := fun e => hi (by rw [e]; rfl)
      simp only [Solver.step, Solver.setArb, if_neg this]
    | _ => rfl
  · intro x hx
    rcases hl x hx with him | hlo
    · refine run_immovable x [op] s ?_ (fun o ho => by rw [List.mem_singleton.1 ho]; exact hint)
      have f := hS.frozen x
      exact ⟨(f.m_inv.trans (seen_inv m t x).1).trans him.1, (f.i_inv.trans (seen_inv m t x).2).trans him.2⟩
    refine run_apart x [op] s ?_ ?_ ?_
    · intro o ho; rw [List.mem_singleton.1 ho]; exact hint
    · intro o ho k hk
      rw [List.mem_singleton.1 ho] at hk
      rw [hS.con]
      exact hlo.unjoined k (hj k hk)
    · intro o ho k hk
      rw [List.mem_singleton.1 ho] at hk
      rw [(con k).1, (con k).2]
      exact hlo.others k (ha k hk) (fun e => hi (by rw [hk, e]))

/-- The state of the solver phase for a pair of bodies that touch only each other, up to the stored impulses: the velocities are those of free
bodies after an impulse, which is the stored one shifted by `N`, `T`. -/
structure Dueling (m : Motion ℝ) (t : Tick ℝ) (i : Nat) (c : Contact ℝ) (N T : ℝ) (c' : Contact ℝ) (s : Solver ℝ) : Prop where
  stays : Stays m (m.seen t) s
  core : (s.arbs i).core = ((t.contact i).preStep (m.seen t) t.dt t.slop (1 - t.collisionBias ^ t.dt)).core
  con : ∀ k, (s.arbs k).a = (t.contact k).a ∧ (s.arbs k).b = (t.contact k).b
  contacts : (s.arbs i).contacts = [c']
  kicked : (t.contact i).Kicked c (m.tick t.free).bodies s.bodies ((t.contact i).impulse (c'.jnAcc + N) (c'.jtAcc + T))
  plain : (t.contact i).Straight c m.bodies ∨ ((t.contact i).u = 0 ∧ c'.jtAcc = 0 ∧ T = 0)

theorem Dueling.elsewhere {m : Motion ℝ} {t : Tick ℝ} {i : Nat} {c : Contact ℝ} {N T : ℝ} {c' : Contact ℝ} (D : t.Duel m i c) (ops : List (SolverOp ℝ)) :
    ∀ {s : Solver ℝ}, Dueling m t i c N T c' s → (∀ op ∈ ops, op.integrated? = none ∧ (∀ k, op.joint? = some k → k ∈ t.joints) ∧
      (∀ k, op.arb? = some k → k ∈ t.arbs) ∧ op.arb? ≠ some i) → Dueling m t i c N T c' (s.run ops) := by
  induction ops with
  | nil => exact fun S _ => S
  | cons op ops ih =>
    intro s S h
    obtain ⟨h1, h2, h3, h4⟩ := h op List.mem_cons_self
    obtain ⟨ea, eb⟩ := step_elsewhere S.stays S.con D.lone op h1 h2 h3 h4
    refine ih (s := s.step op) ⟨S.stays.step op, by rw [ea]; exact S.core, fun k => ?_, by rw [ea]; exact S.contacts, ?_, S.plain⟩ (fun o ho => h o (List.mem_cons_of_mem _ ho))
    · obtain ⟨h1, h2⟩ := (step_con s op).2 k
      exact ⟨h1.trans (S.con k).1, h2.trans (S.con k).2⟩
    · obtain ⟨k1, k2, k3, k4⟩ := S.kicked
      refine ⟨?_, ?_, ?_, ?_⟩
      · rw [eb _ (.inl rfl)]; exact k1
      · rw [eb _ (.inl rfl)]; exact k2
      · rw [eb _ (.inr rfl)]; exact k3
      · rw [eb _ (.inr rfl)]; exact k4

/-! ### Velocities after an impulse -/

theorem Arb.Kicked.partVel {arb : Arb ℝ} {c : Contact ℝ} {h h' : Bodies ℝ} {J T : ℝ} (k : arb.Kicked c h h' (arb.impulse J T)) (hn : arb.n.dot arb.n = 1)
    (hp : arb.Straight c h ∨ T = 0) : arb.partVel c h' = arb.partVel c h + J * arb.response c h arb.n := by
  simp only [Arb.partVel, Arb.Straight, k.va, k.wa, k.vb, k.wb, Arb.response, Arb.impulse, Vec.dot, Vec.add, Vec.sub, Vec.mult, Vec.perp, Vec.cross] at hn hp ⊢
  rcases hp with ⟨h1, h2⟩ | rfl
  · linear_combination (J * ((h arb.a).m_inv + (h arb.b).m_inv)) * hn + T * (c.r2.x * arb.n.x + c.r2.y * arb.n.y) * h2 +
      T * (c.r1.x * arb.n.x + c.r1.y * arb.n.y) * h1
  · linear_combination (J * ((h arb.a).m_inv + (h arb.b).m_inv)) * hn

theorem Arb.Kicked.slipVel {arb : Arb ℝ} {c : Contact ℝ} {h h' : Bodies ℝ} {J T : ℝ} (k : arb.Kicked c h h' (arb.impulse J T)) (hn : arb.n.dot arb.n = 1)
    (hp : arb.Straight c h) : arb.slipVel c h' = arb.slipVel c h + T * arb.response c h arb.n.perp := by
  obtain ⟨h1, h2⟩ := hp
  simp only [Arb.slipVel, k.va, k.wa, k.vb, k.wb, Arb.response, Arb.impulse, Vec.dot, Vec.add, Vec.sub, Vec.mult, Vec.perp, Vec.cross] at hn h1 h2 ⊢
  linear_combination (T * ((h arb.a).m_inv + (h arb.b).m_inv)) * hn + J * (c.r2.x * arb.n.x + c.r2.y * arb.n.y) * h2 +
      J * (c.r1.x * arb.n.x + c.r1.y * arb.n.y) * h1

theorem impulse_rotate (arb : Arb ℝ) (J T : ℝ) : arb.n.rotate ⟨J, T⟩ = arb.impulse J T := by
  simp only [Vec.rotate, Arb.impulse, Vec.add, Vec.mult, Vec.perp, Vec.mk.injEq]
  constructor <;> ring

/-- One more impulse. -/
theorem Arb.Kicked.more {arb : Arb ℝ} {c : Contact ℝ} {h h' h'' : Bodies ℝ} {J T J' T' : ℝ} (k : arb.Kicked c h h' (arb.impulse J T)) (hab : arb.a ≠ arb.b)
    (ha : (h' arb.a).m_inv = (h arb.a).m_inv ∧ (h' arb.a).i_inv = (h arb.a).i_inv) (hb : (h' arb.b).m_inv = (h arb.b).m_inv ∧ (h' arb.b).i_inv = (h arb.b).i_inv)
    (e : ∀ x, ((applyImpulses h' arb.a arb.b c.r1 c.r2 (arb.impulse J' T')) x).v = (h'' x).v ∧ ((applyImpulses h' arb.a arb.b c.r1 c.r2 (arb.impulse J' T')) x).w = (h'' x).w) :
    arb.Kicked c h h'' (arb.impulse (J + J') (T + T')) := by
  have hba := hab.symm
  refine ⟨?_, ?_, ?_, ?_⟩
  · rw [← (e _).1]
    simp only [applyImpulses, Bodies.set, hab, if_false, if_true, k.va, ha.1, Arb.impulse, Vec.add, Vec.sub, Vec.mult, Vec.perp, Vec.mk.injEq]
    constructor <;> ring
  · rw [← (e _).2]
    simp only [applyImpulses, Bodies.set, hab, if_false, if_true, k.wa, ha.2, Arb.impulse, Vec.add, Vec.mult, Vec.perp, Vec.cross]
    ring
  · rw [← (e _).1]
    simp only [applyImpulses, Bodies.set, hab, hba, if_false, if_true, k.vb, hb.1, Arb.impulse, Vec.add, Vec.mult, Vec.perp, Vec.mk.injEq]
    constructor <;> ring
  · rw [← (e _).2]
    simp only [applyImpulses, Bodies.set, hab, hba, if_false, if_true, k.wb, hb.2, Arb.impulse, Vec.add, Vec.mult, Vec.perp, Vec.cross]
    ring

end CP
