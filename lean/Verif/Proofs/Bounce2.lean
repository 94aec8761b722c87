import Verif.Proofs.Bounce

/-! # The impulse between two bodies that touch only each other: the solver's calls -/

namespace CP
open GoFloat

theorem tMass_of_core (arb : Arb ℝ) (h : Bodies ℝ) (dt slop bc : ℝ) (arb' : Arb ℝ) (e : arb'.core = (arb.preStep h dt slop bc).core) (c c' : Contact ℝ)
    (hc : arb.contacts = [c]) (hc' : arb'.contacts = [c']) : c'.tMass = 1 / kScalar h arb.a arb.b c.r1 c.r2 arb.n.perp := by
  have h1 : arb'.contacts.map Contact.core = (arb.preStep h dt slop bc).contacts.map Contact.core := congrArg Arb.contacts e
  simp only [Arb.preStep, hc, hc', List.map_cons, List.map_nil, List.cons.injEq, and_true] at h1
  exact congrArg Contact.tMass h1

theorem free_frozen (m : Motion ℝ) (t : Tick ℝ) (hdt : t.dt ≠ 0) (hn : t.dyn.Nodup) (k : Nat) : Frozen (m.seen t k) ((m.tick t.free).bodies k) := by
  rw [free_bodies m t hdt hn k]
  split
  · exact updateVelocity_frozen _ _ _ _
  · exact .refl _

theorem kScalar_response {arb : Arb ℝ} {c : Contact ℝ} {h h' : Bodies ℝ} (hf : ∀ x, Frozen (h x) (h' x)) (d : Vec ℝ) :
    kScalar h arb.a arb.b c.r1 c.r2 d = arb.response c h' d := by
  simp only [kScalar, kScalarBody, Arb.response, (hf _).m_inv, (hf _).i_inv]
  ring

theorem straight_free {m : Motion ℝ} {t : Tick ℝ} (hdt : t.dt ≠ 0) (hn : t.dyn.Nodup) {arb : Arb ℝ} {c : Contact ℝ} :
    arb.Straight c (m.tick t.free).bodies ↔ arb.Straight c m.bodies := by
  have hff := free_frozen m t hdt hn
  simp only [Arb.Straight, (hff _).i_inv, (seen_inv m t _).2]

/-- What one call for the arbiter leaves: the impulse does not depend on what was stored before. -/
theorem Dueling.apply {m : Motion ℝ} {t : Tick ℝ} {i : Nat} {c : Contact ℝ} {N T : ℝ} {c' : Contact ℝ} {s : Solver ℝ} (D : t.Duel m i c) (S : Dueling m t i c N T c' s) :
    ∃ c'', Dueling m t i c N T c'' (s.step (.arbApply i)) ∧
      c''.jnAcc = max (-((t.contact i).e * (t.contact i).partVel c (m.seen t) + (t.contact i).partVel c (m.tick t.free).bodies) /
        (t.contact i).response c (m.tick t.free).bodies (t.contact i).n - N) 0 ∧
      c''.jtAcc = clamp (-(t.contact i).slipVel c (m.tick t.free).bodies / (t.contact i).response c (m.tick t.free).bodies (t.contact i).n.perp - T)
        (-((t.contact i).u * c''.jnAcc)) ((t.contact i).u * c''.jnAcc) := by
  obtain ⟨e1, e2, e3, e4, e5, e6, e7⟩ := ready_of_core _ _ _ _ _ _ S.core
  rw [D.one, S.contacts] at e7
  obtain ⟨hr, -⟩ := List.forall₂_cons.1 e7
  have htm := tMass_of_core _ _ _ _ _ _ S.core c c' D.one S.contacts
  have hff := free_frozen m t D.pos.ne' D.dyn
  have kn : kScalar (m.seen t) (t.contact i).a (t.contact i).b c.r1 c.r2 (t.contact i).n = (t.contact i).response c (m.tick t.free).bodies (t.contact i).n := kScalar_response hff _
  have kt : kScalar (m.seen t) (t.contact i).a (t.contact i).b c.r1 c.r2 (t.contact i).n.perp = (t.contact i).response c (m.tick t.free).bodies (t.contact i).n.perp :=
    kScalar_response hff _
  have hsv : Solvable (m.seen t) (t.contact i).a (t.contact i).b := solvable_seen ⟨D.solvable.1, D.solvable.2.1, D.solvable.2.2⟩ (t := t)
  have pn := hsv.kScalar_pos c.r1 c.r2 (t.contact i).n
  have pt := hsv.kScalar_pos c.r1 c.r2 (t.contact i).n.perp
  have hnm := hr.nMass
  rw [kn] at hnm pn
  rw [kt] at htm pt
  obtain ⟨d, hd⟩ : ∃ d, d = ((s.arbs i).applyContact s.bodies c').2 := ⟨_, rfl⟩
  have hb : (s.step (.arbApply i)).bodies = ((s.arbs i).applyContact s.bodies c').1 := by
    simp only [Solver.step, Solver.setArb, Arb.applyImpulse, S.contacts, Arb.applyLoop]
  have hcs : ((s.step (.arbApply i)).arbs i).contacts = [d] := by
    rw [hd]
    simp only [Solver.step, Solver.setArb, if_true, Arb.applyImpulse, S.contacts, Arb.applyLoop]
  -- the velocities before
  have vn : ((relVel s.bodies (s.arbs i).a (s.arbs i).b c'.r1 c'.r2).add (s.arbs i).surface_vr).dot (s.arbs i).n =
      (t.contact i).partVel c (m.tick t.free).bodies + (c'.jnAcc + N) * (t.contact i).response c (m.tick t.free).bodies (t.contact i).n := by
    have hp : (t.contact i).Straight c (m.tick t.free).bodies ∨ c'.jtAcc + T = 0 := by
      rcases S.plain with h | ⟨-, h1, h2⟩
      · exact .inl ((straight_free D.pos.ne' D.dyn).2 h)
      · exact .inr (by rw [h1, h2]; ring)
    rw [← S.kicked.partVel D.unit hp, e1, e2, e3, e6, hr.r1, hr.r2]
    have := D.surface
    simp only [relVel, Arb.partVel, Vec.dot, Vec.add, Vec.sub, Vec.mult, Vec.perp] at this ⊢
    linear_combination this
  have vt : (t.contact i).Straight c m.bodies → ((relVel s.bodies (s.arbs i).a (s.arbs i).b c'.r1 c'.r2).add (s.arbs i).surface_vr).dot (s.arbs i).n.perp =
      (t.contact i).slipVel c (m.tick t.free).bodies + (c'.jtAcc + T) * (t.contact i).response c (m.tick t.free).bodies (t.contact i).n.perp := by
    intro h
    rw [← S.kicked.slipVel D.unit ((straight_free D.pos.ne' D.dyn).2 h), e1, e2, e3, e6, hr.r1, hr.r2]
    simp only [relVel, Arb.slipVel, Vec.dot, Vec.add, Vec.sub, Vec.mult, Vec.perp]
    ring
  have jn : d.jnAcc = max (-((t.contact i).e * (t.contact i).partVel c (m.seen t) + (t.contact i).partVel c (m.tick t.free).bodies) /
        (t.contact i).response c (m.tick t.free).bodies (t.contact i).n - N) 0 := by
    have : d.jnAcc = max (c'.jnAcc + -(c'.bounce + ((relVel s.bodies (s.arbs i).a (s.arbs i).b c'.r1 c'.r2).add (s.arbs i).surface_vr).dot (s.arbs i).n) * c'.nMass) 0 := by
      rw [hd]; rfl
    rw [this, vn, hnm, hr.bounce]
    congr 1
    have := pn.ne'
    field_simp
    ring
  have jt0 : d.jtAcc = clamp (c'.jtAcc + -((relVel s.bodies (s.arbs i).a (s.arbs i).b c'.r1 c'.r2).add (s.arbs i).surface_vr).dot (s.arbs i).n.perp * c'.tMass)
      (-((t.contact i).u * d.jnAcc)) ((t.contact i).u * d.jnAcc) := by
    rw [← e5, hd]; rfl
  have jt : d.jtAcc = clamp (-(t.contact i).slipVel c (m.tick t.free).bodies / (t.contact i).response c (m.tick t.free).bodies (t.contact i).n.perp - T)
        (-((t.contact i).u * d.jnAcc)) ((t.contact i).u * d.jnAcc) := by
    rcases S.plain with h | ⟨hu, -, -⟩
    · rw [jt0, vt h, htm]
      congr 1
      have := pt.ne'
      field_simp
      ring
    · rw [jt0, hu, zero_mul, clamp_nothing, clamp_nothing]
  refine ⟨d, ⟨S.stays.step _, (step_arbCore s _ i (fun _ _ _ e => by cases e)).trans S.core, fun k => ?_, hcs, ?_, ?_⟩, jn, jt⟩
  · obtain ⟨h1, h2⟩ := (step_con s (.arbApply i)).2 k
    exact ⟨h1.trans (S.con k).1, h2.trans (S.con k).2⟩
  · have hmore := S.kicked.more (h'' := (s.step (.arbApply i)).bodies) (J' := d.jnAcc - c'.jnAcc) (T' := d.jtAcc - c'.jtAcc) D.ne
      ⟨by rw [(S.stays.frozen _).m_inv, (hff _).m_inv], by rw [(S.stays.frozen _).i_inv, (hff _).i_inv]⟩
      ⟨by rw [(S.stays.frozen _).m_inv, (hff _).m_inv], by rw [(S.stays.frozen _).i_inv, (hff _).i_inv]⟩ ?_
    · have a1 : c'.jnAcc + N + (d.jnAcc - c'.jnAcc) = d.jnAcc + N := by ring
      have a2 : c'.jtAcc + T + (d.jtAcc - c'.jtAcc) = d.jtAcc + T := by ring
      rw [a1, a2] at hmore
      exact hmore
    · intro x
      have e : (s.step (.arbApply i)).bodies = applyImpulses (applyBiasImpulses s.bodies (t.contact i).a (t.contact i).b c.r1 c.r2 ((t.contact i).n.mult (d.jBias - c'.jBias)))
          (t.contact i).a (t.contact i).b c.r1 c.r2 ((t.contact i).impulse (d.jnAcc - c'.jnAcc) (d.jtAcc - c'.jtAcc)) := by
        rw [hb, hd, ← impulse_rotate, ← e1, ← e2, ← e3, ← hr.r1, ← hr.r2]
        rfl
      rw [e]
      have hba := D.ne.symm
      by_cases xa : x = (t.contact i).a
      · subst xa
        simp only [applyImpulses, applyBiasImpulses, Bodies.set, D.ne, if_true, if_false, and_self]
      · by_cases xb : x = (t.contact i).b
        · subst xb
          simp only [applyImpulses, applyBiasImpulses, Bodies.set, hba, if_true, if_false, and_self]
        · simp only [applyImpulses, applyBiasImpulses, Bodies.set, xa, xb, if_false, and_self]
  · rcases S.plain with h | ⟨hu, -, hT⟩
    · exact .inl h
    · refine .inr ⟨hu, ?_, hT⟩
      rw [jt0, hu, zero_mul, clamp_nothing]

end CP
