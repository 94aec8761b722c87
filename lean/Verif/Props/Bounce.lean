import Verif.Proofs.Bounce3

/-! # C60: two bodies bounce as their elasticity and slide as their friction says

`v` are the velocities before the step, `free` those to which gravity, damping and forces take the bodies in the step. -/

namespace CP
open GoFloat

/-- Moving bodies changes no velocities. -/
theorem seen_v (m : Motion ℝ) (t : Tick ℝ) (x : Nat) : (m.seen t x).v = (m.bodies x).v ∧ (m.seen t x).w = (m.bodies x).w ∧ (m.seen t x).f = (m.bodies x).f ∧
    (m.seen t x).t = (m.bodies x).t ∧ (m.seen t x).m = (m.bodies x).m ∧ (m.seen t x).i = (m.bodies x).i ∧ (m.seen t x).m_inv = (m.bodies x).m_inv ∧
    (m.seen t x).i_inv = (m.bodies x).i_inv := by
  have : ∀ (l : List Nat) (h : Bodies ℝ), (Motion.move h t.dt l x).v = (h x).v ∧ (Motion.move h t.dt l x).w = (h x).w ∧ (Motion.move h t.dt l x).f = (h x).f ∧
      (Motion.move h t.dt l x).t = (h x).t ∧ (Motion.move h t.dt l x).m = (h x).m ∧ (Motion.move h t.dt l x).i = (h x).i ∧
      (Motion.move h t.dt l x).m_inv = (h x).m_inv ∧ (Motion.move h t.dt l x).i_inv = (h x).i_inv := by
    intro l
    induction l with
    | nil => exact fun h => ⟨rfl, rfl, rfl, rfl, rfl, rfl, rfl, rfl⟩
    | cons k l ih =>
      intro h
      have e : Motion.move h t.dt (k :: l) = Motion.move (h.set k ((h k).updatePosition t.dt)) t.dt l := rfl
      rw [e]
      obtain ⟨h1, h2, h3, h4, h5, h6, h7, h8⟩ := ih (h.set k ((h k).updatePosition t.dt))
      rw [h1, h2, h3, h4, h5, h6, h7, h8]
      by_cases hk : x = k
      · subst hk
        simp only [Bodies.set, if_true]
        exact ⟨rfl, rfl, rfl, rfl, rfl, rfl, rfl, rfl⟩
      · simp only [Bodies.set, if_neg hk, and_self]
  exact this t.movers m.bodies

theorem seen_partVel (m : Motion ℝ) (t : Tick ℝ) (arb : Arb ℝ) (c : Contact ℝ) : arb.partVel c (m.seen t) = arb.partVel c m.bodies := by
  simp only [Arb.partVel, (seen_v m t _).1, (seen_v m t _).2.1]

theorem free_response {m : Motion ℝ} {t : Tick ℝ} {i : Nat} {c : Contact ℝ} (D : t.Duel m i c) (d : Vec ℝ) :
    (t.contact i).response c (m.tick t.free).bodies d = (t.contact i).response c m.bodies d := by
  have hff := free_frozen m t D.pos.ne' D.dyn
  simp only [Arb.response, (hff _).m_inv, (hff _).i_inv, (seen_v m t _).2.2.2.2.2.2.1, (seen_v m t _).2.2.2.2.2.2.2]

theorem Tick.Duel.response_pos {m : Motion ℝ} {t : Tick ℝ} {i : Nat} {c : Contact ℝ} (D : t.Duel m i c) (d : Vec ℝ) : 0 < (t.contact i).response c m.bodies d := by
  obtain ⟨h1, h2, h3⟩ := D.solvable
  have := mul_nonneg h2 (sq_nonneg (c.r1.cross d))
  have := mul_nonneg h3 (sq_nonneg (c.r2.cross d))
  simp only [Arb.response]
  linarith

/-- The impulse of a step in which two bodies touch only each other, with whatever the last step has stored: at least the surplus carried over,
at most as much more as the elasticity asks for; friction up to `u` times the part of it that is not carried over. The arbiter stores that part. -/
theorem C60_carried {m : Motion ℝ} {t : Tick ℝ} {i : Nat} {c : Contact ℝ} (D : t.Duel m i c) :
    ∃ J T : ℝ,
      J = max ((t.carriedOver m i - 1) * c.jnAcc)
        (-((t.contact i).partVel c (m.tick t.free).bodies + (t.contact i).e * (t.contact i).partVel c m.bodies) / (t.contact i).response c m.bodies (t.contact i).n) ∧
      (t.contact i).Kicked c (m.tick t.free).bodies (m.tick t).bodies ((t.contact i).impulse J T) ∧
      ∃ c', (m.leftArb t i).contacts = [c'] ∧ c'.jnAcc = J - (t.carriedOver m i - 1) * c.jnAcc ∧ c'.jtAcc = T - (t.carriedOver m i - 1) * c.jtAcc ∧
        c'.jtAcc = clamp (-(t.contact i).slipVel c (m.tick t.free).bodies / (t.contact i).response c m.bodies (t.contact i).n.perp - (t.carriedOver m i - 1) * c.jtAcc)
          (-((t.contact i).u * c'.jnAcc)) ((t.contact i).u * c'.jnAcc) := by
  obtain ⟨k, c', h1, -, -, -, h5, h6⟩ := duel_kicked D
  refine ⟨_, _, ?_, k, c', h1, ?_, ?_, ?_⟩
  · rw [duelN, max_comm, ← max_add_add_right, zero_add, sub_add_cancel, free_response D, seen_partVel]
    congr 2
    ring
  · rw [h5]; ring
  · rw [h6]; ring
  · rw [h6, h5, duelT, free_response D]

/-- The impulse of such a step if nothing is stored or the last step was as long: the textbook formula, with Coulomb's friction. It does not
depend on the number of iterations, and is what the arbiter stores (what `TotalImpulse` reports). -/
theorem C60_impulse {m : Motion ℝ} {t : Tick ℝ} {i : Nat} {c : Contact ℝ} (D : t.Duel m i c) (hs : t.Steady m i c) :
    ∃ J T : ℝ,
      J = max 0 (-((t.contact i).partVel c (m.tick t.free).bodies + (t.contact i).e * (t.contact i).partVel c m.bodies) / (t.contact i).response c m.bodies (t.contact i).n) ∧
      T = clamp (-(t.contact i).slipVel c (m.tick t.free).bodies / (t.contact i).response c m.bodies (t.contact i).n.perp) (-((t.contact i).u * J)) ((t.contact i).u * J) ∧
      (t.contact i).Kicked c (m.tick t.free).bodies (m.tick t).bodies ((t.contact i).impulse J T) ∧
      (m.leftArb t i).totalImpulse true = (t.contact i).impulse J T := by
  obtain ⟨k, c', h1, h2, -, -, h5, h6⟩ := duel_kicked D
  have hN : (t.carriedOver m i - 1) * c.jnAcc = 0 ∧ (t.carriedOver m i - 1) * c.jtAcc = 0 := by
    rcases hs with ⟨a, b⟩ | ⟨a, b⟩
    · rw [a, b]; simp
    · have : t.carriedOver m i = 1 := by
        have hz := D.pos.ne'
        simp [Tick.carriedOver, a, b, hz]
      rw [this]; simp
  rw [hN.1] at h5
  rw [hN.1, hN.2] at k h6
  refine ⟨duelN m t i c 0, duelT m t i c 0 0, ?_, ?_, ?_, ?_⟩
  · rw [duelN, max_comm, sub_zero, free_response D, seen_partVel]
    congr 2
    ring
  · rw [duelT, sub_zero, free_response D]
  · rw [add_zero, add_zero] at k; exact k
  · have : (m.leftArb t i).totalImpulse true = (⟨0, 0⟩ : Vec ℝ).add ((m.leftArb t i).n.rotate ⟨c'.jnAcc, c'.jtAcc⟩) := by
      simp only [Arb.totalImpulse, h1, List.foldl, if_true]
    rw [this, h2, impulse_rotate, h5, h6]
    simp only [Vec.add, zero_add]

theorem plain_or {m : Motion ℝ} {t : Tick ℝ} {i : Nat} {c : Contact ℝ} (D : t.Duel m i c) {J T x : ℝ} (hT : T = clamp x (-((t.contact i).u * J)) ((t.contact i).u * J)) :
    (t.contact i).Straight c (m.tick t.free).bodies ∨ T = 0 := by
  rcases D.plain with h | ⟨h, -⟩
  · exact .inl ((straight_free D.pos.ne' D.dyn).2 h)
  · right
    rw [hT, h, zero_mul, clamp_nothing]

/-- Newton's law of restitution: after the step the bodies part with `e` times the velocity with which they came, or faster if they part by
themselves. -/
theorem C60_bounce {m : Motion ℝ} {t : Tick ℝ} {i : Nat} {c : Contact ℝ} (D : t.Duel m i c) (hs : t.Steady m i c) :
    (t.contact i).partVel c (m.tick t).bodies = max ((t.contact i).partVel c (m.tick t.free).bodies) (-((t.contact i).e * (t.contact i).partVel c m.bodies)) := by
  obtain ⟨J, T, hJ, hT, k, -⟩ := C60_impulse D hs
  rw [k.partVel D.unit (plain_or D hT), hJ, free_response D]
  have hp := D.response_pos (t.contact i).n
  generalize (t.contact i).response c m.bodies (t.contact i).n = K at hp
  rw [max_mul_of_nonneg _ _ hp.le, zero_mul, ← max_add_add_left, add_zero]
  congr 1
  field_simp
  ring

/-- With whatever is stored from the last step. -/
theorem C60_carried_bounce {m : Motion ℝ} {t : Tick ℝ} {i : Nat} {c : Contact ℝ} (D : t.Duel m i c) :
    (t.contact i).partVel c (m.tick t).bodies = max ((t.contact i).partVel c (m.tick t.free).bodies + (t.carriedOver m i - 1) * c.jnAcc * (t.contact i).response c m.bodies (t.contact i).n)
      (-((t.contact i).e * (t.contact i).partVel c m.bodies)) := by
  obtain ⟨J, T, hJ, k, c', -, -, hT, hT'⟩ := C60_carried D
  have hpl : (t.contact i).Straight c (m.tick t.free).bodies ∨ T = 0 := by
    rcases D.plain with h | ⟨h, h2⟩
    · exact .inl ((straight_free D.pos.ne' D.dyn).2 h)
    · right
      rw [hT, h, zero_mul, clamp_nothing, h2, mul_zero, sub_zero] at hT'
      exact hT'
  rw [k.partVel D.unit hpl, hJ, free_response D]
  have hp := D.response_pos (t.contact i).n
  generalize (t.contact i).response c m.bodies (t.contact i).n = K at hp
  rw [max_mul_of_nonneg _ _ hp.le, ← max_add_add_left]
  congr 1
  field_simp
  ring

/-- Coulomb's law for circles (pushing at the contact turns neither body): the surfaces stick if friction, at most `u` times the normal impulse, can
stop them; else friction slows them down by just that much. -/
theorem C60_friction {m : Motion ℝ} {t : Tick ℝ} {i : Nat} {c : Contact ℝ} (D : t.Duel m i c) (hs : t.Steady m i c) (hu : 0 ≤ (t.contact i).u)
    (hr : (t.contact i).Straight c m.bodies) :
    let slip := (t.contact i).slipVel c (m.tick t.free).bodies
    let slip' := (t.contact i).slipVel c (m.tick t).bodies
    ∃ J : ℝ, J = max 0 (-((t.contact i).partVel c (m.tick t.free).bodies + (t.contact i).e * (t.contact i).partVel c m.bodies) / (t.contact i).response c m.bodies (t.contact i).n) ∧
      (|slip| ≤ (t.contact i).u * J * (t.contact i).response c m.bodies (t.contact i).n.perp → slip' = 0) ∧
      ((t.contact i).u * J * (t.contact i).response c m.bodies (t.contact i).n.perp < slip →
        slip' = slip - (t.contact i).u * J * (t.contact i).response c m.bodies (t.contact i).n.perp) ∧
      (slip < -((t.contact i).u * J * (t.contact i).response c m.bodies (t.contact i).n.perp) →
        slip' = slip + (t.contact i).u * J * (t.contact i).response c m.bodies (t.contact i).n.perp) := by
  intro slip slip'
  obtain ⟨J, T, hJ, hT, k, -⟩ := C60_impulse D hs
  have e : slip' = slip + T * (t.contact i).response c m.bodies (t.contact i).n.perp := by
    rw [← free_response D]; exact k.slipVel D.unit ((straight_free D.pos.ne' D.dyn).2 hr)
  have hp := D.response_pos (t.contact i).n.perp
  have hT' : T = clamp (-slip / (t.contact i).response c m.bodies (t.contact i).n.perp) (-((t.contact i).u * J)) ((t.contact i).u * J) := hT
  have hJ0 : 0 ≤ J := by rw [hJ]; exact le_max_left _ _
  have hL : 0 ≤ (t.contact i).u * J := mul_nonneg hu hJ0
  refine ⟨J, hJ, ?_, ?_, ?_⟩ <;> intro h
  all_goals
    rw [e, hT', clamp_eq]
    generalize (t.contact i).response c m.bodies (t.contact i).n.perp = K at hp h
    generalize (t.contact i).u * J = L at hL h
    clear_value slip slip'
  · obtain ⟨h1, h2⟩ := abs_le.1 h
    have a1 : -L ≤ -slip / K := by rw [le_div_iff₀ hp]; linarith
    have a2 : -slip / K ≤ L := by rw [div_le_iff₀ hp]; linarith
    rw [max_eq_left a1, min_eq_left a2]
    field_simp
    ring
  · have a1 : -slip / K ≤ -L := by rw [div_le_iff₀ hp]; linarith
    rw [max_eq_right a1, min_eq_left (by linarith)]
    ring
  · have a1 : L ≤ -slip / K := by rw [le_div_iff₀ hp]; linarith
    rw [max_eq_left (by linarith), min_eq_right a1]

theorem Arb.Kicked.unique {arb : Arb ℝ} {c : Contact ℝ} {h h' h'' : Bodies ℝ} {P : Vec ℝ} (k : arb.Kicked c h h' P) (k' : arb.Kicked c h h'' P) :
    ∀ x, x = arb.a ∨ x = arb.b → (h' x).v = (h'' x).v ∧ (h' x).w = (h'' x).w := by
  rintro x (rfl | rfl)
  · exact ⟨k.va.trans k'.va.symm, k.wa.trans k'.wa.symm⟩
  · exact ⟨k.vb.trans k'.vb.symm, k.wb.trans k'.wb.symm⟩

/-- One iteration is as good as many. -/
theorem C60_iterations {m : Motion ℝ} {t : Tick ℝ} {i : Nat} {c : Contact ℝ} (D : t.Duel m i c) {n : Nat} (hn : 0 < n) :
    ∀ x, x = (t.contact i).a ∨ x = (t.contact i).b →
      ((m.tick t).bodies x).v = ((m.tick { t with iterations := n }).bodies x).v ∧ ((m.tick t).bodies x).w = ((m.tick { t with iterations := n }).bodies x).w := by
  have hdt := D.pos.ne'
  have D' : Tick.Duel m { t with iterations := n } i c :=
    ⟨D.pos, D.dyn, hn, D.once, fun x hx => (D.lone x hx).imp_right fun l => ⟨l.others, l.unjoined⟩, D.ne, D.one, D.unit, D.surface, D.solvable, D.plain⟩
  have ef : ∀ k, (m.tick t.free).bodies k = (m.tick (Tick.free { t with iterations := n })).bodies k := by
    intro k
    rw [free_bodies m t hdt D.dyn, free_bodies m { t with iterations := n } hdt D.dyn]
    rfl
  have ef' : (m.tick t.free).bodies = (m.tick (Tick.free { t with iterations := n })).bodies := funext ef
  have k := (duel_kicked D).1
  have k' := (duel_kicked D').1
  simp only [duelN, duelT, Tick.carriedOver] at k k'
  rw [← ef'] at k'
  exact k.unique k'

theorem weightless_free {m : Motion ℝ} {t : Tick ℝ} {i : Nat} {c : Contact ℝ} (D : t.Duel m i c) (hw : t.Weightless m i) :
    ∀ x, x = (t.contact i).a ∨ x = (t.contact i).b → ((m.tick t.free).bodies x).v = (m.bodies x).v ∧ ((m.tick t.free).bodies x).w = (m.bodies x).w := by
  intro x hx
  obtain ⟨h1, h2, h3, h4, -⟩ := seen_v m t x
  obtain ⟨f1, f2⟩ := hw.forces x hx
  rw [free_bodies m t D.pos.ne' D.dyn]
  split
  · simp only [Body.updateVelocity]
    split
    · exact ⟨h1, h2⟩
    · simp only [hw.gravity, hw.damping, h1, h2, h3, h4, f1, f2, Real.one_rpow]
      simp [Vec.add, Vec.mult]
  · exact ⟨h1, h2⟩

/-- Without gravity, damping and forces: bodies that come together part with `e` times their velocity, bodies that part go on. -/
theorem C60_restitution {m : Motion ℝ} {t : Tick ℝ} {i : Nat} {c : Contact ℝ} (D : t.Duel m i c) (hs : t.Steady m i c) (hw : t.Weightless m i) (he : 0 ≤ (t.contact i).e) :
    ((t.contact i).partVel c m.bodies ≤ 0 → (t.contact i).partVel c (m.tick t).bodies = -((t.contact i).e * (t.contact i).partVel c m.bodies)) ∧
    (0 ≤ (t.contact i).partVel c m.bodies → (t.contact i).partVel c (m.tick t).bodies = (t.contact i).partVel c m.bodies) := by
  have f := weightless_free D hw
  have e : (t.contact i).partVel c (m.tick t.free).bodies = (t.contact i).partVel c m.bodies := by
    simp only [Arb.partVel, (f _ (.inl rfl)).1, (f _ (.inl rfl)).2, (f _ (.inr rfl)).1, (f _ (.inr rfl)).2]
  rw [C60_bounce D hs, e]
  constructor <;> intro h
  · exact max_eq_right (by nlinarith)
  · exact max_eq_left (by nlinarith)

theorem kicked_energy {b b' : Body ℝ} (hu : b.Undriven) (hm : b'.m = b.m) (hi : b'.i = b.i) {P : Vec ℝ} {r : Vec ℝ} (hv : b'.v = b.v.add (P.mult b.m_inv))
    (hw : b'.w = b.w + b.i_inv * r.cross P) :
    b'.kineticEnergy = b.kineticEnergy + 2 * (P.dot b.v + r.cross P * b.w) + (P.dot P * b.m_inv + b.i_inv * r.cross P ^ 2) := by
  rw [kineticEnergy_eq, kineticEnergy_eq, hv, hw, hm, hi]
  generalize r.cross P = q
  rcases hu.mass with ⟨-, h1⟩ | ⟨h1, h1'⟩ <;> rcases hu.moment with ⟨-, h2⟩ | ⟨h2, h2'⟩
  · simp only [Vec.dot, Vec.add, Vec.mult]
    linear_combination (2 * (P.x * b.v.x + P.y * b.v.y) + (P.x * P.x + P.y * P.y) * b.m_inv) * h1 + (2 * q * b.w + b.i_inv * q ^ 2) * h2
  · simp only [Vec.dot, Vec.add, Vec.mult, h2, h2']
    linear_combination (2 * (P.x * b.v.x + P.y * b.v.y) + (P.x * P.x + P.y * P.y) * b.m_inv) * h1
  · simp only [Vec.dot, Vec.add, Vec.mult, h1, h1']
    linear_combination (2 * q * b.w + b.i_inv * q ^ 2) * h2
  · simp only [Vec.dot, Vec.add, Vec.mult, h1, h1', h2, h2']
    ring

/-- The energy that an impulse gives. -/
theorem duel_energy {m : Motion ℝ} {t : Tick ℝ} {i : Nat} {c : Contact ℝ} (D : t.Duel m i c) (hw : t.Weightless m i) {J T : ℝ}
    (k : (t.contact i).Kicked c (m.tick t.free).bodies (m.tick t).bodies ((t.contact i).impulse J T))
    (hp : (t.contact i).Straight c m.bodies ∨ T = 0)
    (hu : ∀ x, x = (t.contact i).a ∨ x = (t.contact i).b → (m.bodies x).Undriven) :
    energy {(t.contact i).a, (t.contact i).b} (m.tick t).bodies = energy {(t.contact i).a, (t.contact i).b} m.bodies +
      (2 * J * (t.contact i).partVel c m.bodies + J ^ 2 * (t.contact i).response c m.bodies (t.contact i).n) +
      (2 * T * ((t.contact i).slipVel c m.bodies - (t.contact i).surface_vr.dot (t.contact i).n.perp) + T ^ 2 * (t.contact i).response c m.bodies (t.contact i).n.perp) := by
  have hdt := D.pos.ne'
  have f := weightless_free D hw
  have hff := free_frozen m t hdt D.dyn
  have hfz : ∀ x, ((m.tick t).bodies x).m = (m.bodies x).m ∧ ((m.tick t).bodies x).i = (m.bodies x).i := by
    intro x
    have fz := tick_frozen m t hdt x
    exact ⟨fz.m.trans (seen_v m t x).2.2.2.2.1, fz.i.trans (seen_v m t x).2.2.2.2.2.1⟩
  have mi : ∀ x, ((m.tick t.free).bodies x).m_inv = (m.bodies x).m_inv ∧ ((m.tick t.free).bodies x).i_inv = (m.bodies x).i_inv := by
    intro x
    rw [(hff x).m_inv, (hff x).i_inv]
    exact ⟨(seen_v m t x).2.2.2.2.2.2.1, (seen_v m t x).2.2.2.2.2.2.2⟩
  obtain ⟨k1, k2, k3, k4⟩ := k
  rw [(f _ (.inl rfl)).1, (mi _).1] at k1
  rw [(f _ (.inl rfl)).2, (mi _).2] at k2
  rw [(f _ (.inr rfl)).1, (mi _).1] at k3
  rw [(f _ (.inr rfl)).2, (mi _).2] at k4
  obtain ⟨P, hP⟩ : ∃ P, P = (t.contact i).impulse J T := ⟨_, rfl⟩
  rw [← hP] at k1 k2 k3 k4
  have ea := kicked_energy (P := P.neg) (r := c.r1) (hu _ (.inl rfl)) (hfz _).1 (hfz _).2
    (by rw [k1]; simp only [Vec.sub, Vec.add, Vec.mult, Vec.neg, Vec.mk.injEq]; constructor <;> ring)
    (by rw [k2]; simp only [Vec.cross, Vec.neg]; ring)
  have eb := kicked_energy (P := P) (r := c.r2) (hu _ (.inr rfl)) (hfz _).1 (hfz _).2 k3 k4
  rw [energy, energy, Finset.sum_pair D.ne, Finset.sum_pair D.ne, ea, eb, hP]
  have hn := D.unit
  simp only [Arb.Straight, Arb.partVel, Arb.slipVel, Arb.response, Arb.impulse, Vec.dot, Vec.add, Vec.sub, Vec.mult, Vec.neg, Vec.perp, Vec.cross] at hn hp ⊢
  generalize hA : m.bodies (t.contact i).a = A
  generalize hB : m.bodies (t.contact i).b = B
  generalize (t.contact i).n.x = nx at *
  generalize (t.contact i).n.y = ny at *
  generalize (t.contact i).surface_vr.x = sx at *
  generalize (t.contact i).surface_vr.y = sy at *
  clear ea eb k1 k2 k3 k4 hP hfz mi hff f
  rcases hp with ⟨h1, h2⟩ | rfl
  · rw [hA] at h1
    rw [hB] at h2
    linear_combination ((J ^ 2 + T ^ 2) * (A.m_inv + B.m_inv)) * hn + (2 * J * T * (c.r1.x * nx + c.r1.y * ny)) * h1 + (2 * J * T * (c.r2.x * nx + c.r2.y * ny)) * h2
  · linear_combination (J ^ 2 * (A.m_inv + B.m_inv)) * hn

/-- A bounce without friction loses the share `1 - e²` of the energy of the approach, exactly; with elasticity 1 none. (`KineticEnergy()` is twice
the energy.) -/
theorem C60_energy {m : Motion ℝ} {t : Tick ℝ} {i : Nat} {c : Contact ℝ} (D : t.Duel m i c) (hs : t.Steady m i c) (hw : t.Weightless m i)
    (hu : ∀ x, x = (t.contact i).a ∨ x = (t.contact i).b → (m.bodies x).Undriven) (hf : (t.contact i).u = 0) (he : 0 ≤ (t.contact i).e)
    (hv : (t.contact i).partVel c m.bodies ≤ 0) :
    energy {(t.contact i).a, (t.contact i).b} (m.tick t).bodies = energy {(t.contact i).a, (t.contact i).b} m.bodies -
      (1 - (t.contact i).e ^ 2) * (t.contact i).partVel c m.bodies ^ 2 / (t.contact i).response c m.bodies (t.contact i).n := by
  obtain ⟨J, T, hJ, hT, k, -⟩ := C60_impulse D hs
  have f := weightless_free D hw
  have e : (t.contact i).partVel c (m.tick t.free).bodies = (t.contact i).partVel c m.bodies := by
    simp only [Arb.partVel, (f _ (.inl rfl)).1, (f _ (.inl rfl)).2, (f _ (.inr rfl)).1, (f _ (.inr rfl)).2]
  have hT0 : T = 0 := by rw [hT, hf, zero_mul, clamp_nothing]
  rw [duel_energy D hw k (.inr hT0) hu, hT0, hJ, e]
  have hp := D.response_pos (t.contact i).n
  generalize (t.contact i).response c m.bodies (t.contact i).n = K at hp
  generalize (t.contact i).partVel c m.bodies = v at hv
  generalize (t.contact i).e = E at he
  rw [max_eq_right (div_nonneg (by nlinarith) hp.le)]
  field_simp
  ring

/-- With friction at least that much is lost (`u ≥ 0`, surfaces that do not move): the pair never gains energy if `e ≤ 1`. -/
theorem C60_energy_friction {m : Motion ℝ} {t : Tick ℝ} {i : Nat} {c : Contact ℝ} (D : t.Duel m i c) (hs : t.Steady m i c) (hw : t.Weightless m i)
    (hu : ∀ x, x = (t.contact i).a ∨ x = (t.contact i).b → (m.bodies x).Undriven) (hf : 0 ≤ (t.contact i).u) (he : 0 ≤ (t.contact i).e)
    (hsv : (t.contact i).surface_vr = ⟨0, 0⟩) :
    energy {(t.contact i).a, (t.contact i).b} (m.tick t).bodies ≤ energy {(t.contact i).a, (t.contact i).b} m.bodies -
      (1 - (t.contact i).e ^ 2) * min 0 ((t.contact i).partVel c m.bodies) ^ 2 / (t.contact i).response c m.bodies (t.contact i).n := by
  obtain ⟨J, T, hJ, hT, k, -⟩ := C60_impulse D hs
  have f := weightless_free D hw
  have e : (t.contact i).partVel c (m.tick t.free).bodies = (t.contact i).partVel c m.bodies := by
    simp only [Arb.partVel, (f _ (.inl rfl)).1, (f _ (.inl rfl)).2, (f _ (.inr rfl)).1, (f _ (.inr rfl)).2]
  have e' : (t.contact i).slipVel c (m.tick t.free).bodies = (t.contact i).slipVel c m.bodies := by
    simp only [Arb.slipVel, (f _ (.inl rfl)).1, (f _ (.inl rfl)).2, (f _ (.inr rfl)).1, (f _ (.inr rfl)).2]
  have hJ0 : 0 ≤ J := by rw [hJ]; exact le_max_left _ _
  rw [duel_energy D hw k ((plain_or D hT).imp_left (straight_free D.pos.ne' D.dyn).1) hu, hsv]
  rw [e] at hJ
  rw [e'] at hT
  have hp := D.response_pos (t.contact i).n
  have hq := D.response_pos (t.contact i).n.perp
  have hL : 0 ≤ (t.contact i).u * J := mul_nonneg hf hJ0
  have hz : (⟨0, 0⟩ : Vec ℝ).dot (t.contact i).n.perp = 0 := by simp [Vec.dot]
  rw [hz, sub_zero]
  generalize (t.contact i).response c m.bodies (t.contact i).n = K at *
  generalize (t.contact i).response c m.bodies (t.contact i).n.perp = L at *
  generalize (t.contact i).slipVel c m.bodies = s at *
  generalize (t.contact i).partVel c m.bodies = v at *
  generalize (t.contact i).e = E at *
  generalize (t.contact i).u * J = μ at *
  have t1 : 2 * T * s + T ^ 2 * L ≤ 0 := by
    obtain ⟨θ, h0, h1, h2⟩ := clamp_share (x := 0) (d := -s / L) (lo := -μ) (hi := μ) (by linarith) hL
    rw [zero_add, sub_zero, ← hT] at h2
    have : 2 * T * s + T ^ 2 * L = -(θ * (2 - θ) * s ^ 2 / L) := by rw [h2]; field_simp; ring
    rw [this]
    have : 0 ≤ θ * (2 - θ) * s ^ 2 / L := div_nonneg (mul_nonneg (mul_nonneg h0 (by linarith)) (sq_nonneg s)) hq.le
    linarith
  have t2 : 2 * J * v + J ^ 2 * K = -((1 - E ^ 2) * min 0 v ^ 2 / K) := by
    rcases le_total v 0 with h | h
    · rw [min_eq_right h, hJ, max_eq_right (div_nonneg (by nlinarith) hp.le)]
      field_simp
      ring
    · rw [min_eq_left h, hJ, max_eq_left (div_nonpos_of_nonpos_of_nonneg (by nlinarith) hp.le)]
      ring
  linarith

end CP
