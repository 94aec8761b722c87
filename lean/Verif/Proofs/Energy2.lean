import Verif.Proofs.Energy

/-! # Contacts and joints do no work -/

namespace CP
open GoFloat Finset

theorem AllUndriven.m_nonneg {S : Finset Nat} {h : Bodies ℝ} (hu : AllUndriven S h) {k : Nat} (hk : k ∈ S) : 0 ≤ (h k).m_inv := by
  rcases (hu k hk).mass with ⟨h1, -⟩ | ⟨h1, -⟩ <;> linarith
theorem AllUndriven.i_nonneg {S : Finset Nat} {h : Bodies ℝ} (hu : AllUndriven S h) {k : Nat} (hk : k ∈ S) : 0 ≤ (h k).i_inv := by
  rcases (hu k hk).moment with ⟨h1, -⟩ | ⟨h1, -⟩ <;> linarith

theorem clamp_eq (x lo hi : ℝ) : clamp x lo hi = min (max x lo) hi := by
  unfold clamp
  split
  · next h => rw [max_eq_left h.le]
  · next h => rw [max_eq_right (not_lt.1 h)]

/-- Clamping what is added to a value within the limits lets a share of it through. -/
theorem clamp_share {x d lo hi : ℝ} (h1 : lo ≤ x) (h2 : x ≤ hi) : ∃ θ, 0 ≤ θ ∧ θ ≤ 1 ∧ clamp (x + d) lo hi - x = θ * d := by
  have hc : clamp (x + d) lo hi = min (max (x + d) lo) hi := clamp_eq _ _ _
  rw [hc]
  rcases lt_trichotomy d 0 with hd | hd | hd
  · refine ⟨(x - max (x + d) lo) / (-d), by apply div_nonneg _ (by linarith); simp; exact ⟨by linarith, h1⟩, ?_, ?_⟩
    · rw [div_le_one (by linarith)]; linarith [le_max_left (x + d) lo]
    · rw [min_eq_left (max_le (by linarith) (by linarith))]
      have : d ≠ 0 := hd.ne
      field_simp; ring
  · refine ⟨0, le_rfl, zero_le_one, ?_⟩
    rw [hd, add_zero, max_eq_left h1, min_eq_left h2]; ring
  · refine ⟨(min (x + d) hi - x) / d, by apply div_nonneg _ hd.le; simp; exact ⟨by linarith, h2⟩, ?_, ?_⟩
    · rw [div_le_one hd]; linarith [min_le_left (x + d) hi]
    · rw [max_eq_left (by linarith)]
      field_simp

theorem max_share {x d : ℝ} (h1 : 0 ≤ x) : ∃ θ, 0 ≤ θ ∧ θ ≤ 1 ∧ max (x + d) 0 - x = θ * d := by
  rcases le_or_gt 0 (x + d) with h | h
  · exact ⟨1, zero_le_one, le_rfl, by rw [max_eq_left h]; ring⟩
  · refine ⟨x / -d, by apply div_nonneg h1; linarith, by rw [div_le_one (by linarith)]; linarith, ?_⟩
    have : d ≠ 0 := by rintro rfl; linarith
    rw [max_eq_right h.le]; field_simp; ring

theorem clamp_within {x lo hi : ℝ} (h : lo ≤ hi) : lo ≤ clamp x lo hi ∧ clamp x lo hi ≤ hi := by
  have hc : clamp x lo hi = min (max x lo) hi := clamp_eq _ _ _
  rw [hc]
  exact ⟨le_min (le_max_right _ _) h, min_le_right _ _⟩

/-- The work of an impulse along a direction. -/
theorem line_energy {S : Finset Nat} {h : Bodies ℝ} {a b : Nat} (r1 r2 n : Vec ℝ) (ha : a ∈ S) (hb : b ∈ S) (hab : a ≠ b) (hu : AllUndriven S h)
    (hn : n.dot n ≤ 1) (j θ : ℝ) (h0 : 0 ≤ θ) (h1 : θ ≤ 1) (hj : j = θ * (-((relVel h a b r1 r2).dot n) * (1 / kScalar h a b r1 r2 n))) :
    AllUndriven S (applyImpulses h a b r1 r2 (n.mult j)) ∧ energy S (applyImpulses h a b r1 r2 (n.mult j)) ≤ energy S h := by
  obtain ⟨u, e⟩ := applyImpulses_energy S h a b r1 r2 (n.mult j) ha hb hab hu
  refine ⟨u, ?_⟩
  rw [e]
  have ma := hu.m_nonneg ha
  have mb := hu.m_nonneg hb
  have ia := hu.i_nonneg ha
  have ib := hu.i_nonneg hb
  obtain ⟨v, hv⟩ : ∃ v, v = (relVel h a b r1 r2).dot n := ⟨_, rfl⟩
  obtain ⟨k, hk⟩ : ∃ k, k = kScalar h a b r1 r2 n := ⟨_, rfl⟩
  rw [← hv, ← hk] at hj
  have hk0 : 0 ≤ k := by
    rw [hk]; simp only [kScalar, kScalarBody]
    nlinarith [mul_nonneg ia (mul_self_nonneg (r1.cross n)), mul_nonneg ib (mul_self_nonneg (r2.cross n))]
  have hw := work_le (v := v) hk0 h0 h1
  rw [← hj] at hw
  have : 2 * (n.mult j).dot (relVel h a b r1 r2) + ((n.mult j).dot (n.mult j) * ((h a).m_inv + (h b).m_inv) + (r1.cross (n.mult j)) ^ 2 * (h a).i_inv +
      (r2.cross (n.mult j)) ^ 2 * (h b).i_inv) = 2 * (j * v) + j ^ 2 * k - j ^ 2 * ((1 - n.dot n) * ((h a).m_inv + (h b).m_inv)) := by
    rw [hv, hk]
    simp only [kScalar, kScalarBody, Vec.dot, Vec.mult, Vec.cross]
    ring
  rw [this]
  have : 0 ≤ j ^ 2 * ((1 - n.dot n) * ((h a).m_inv + (h b).m_inv)) := mul_nonneg (sq_nonneg _) (mul_nonneg (by linarith) (by linarith))
  linarith

/-- A call for one contact adds no energy, unless the limit of friction has shrunk below the friction that is already there. -/
theorem contact_energy {S : Finset Nat} {h : Bodies ℝ} {arb : Arb ℝ} {c : Contact ℝ} (ha : arb.a ∈ S) (hb : arb.b ∈ S) (hab : arb.a ≠ arb.b) (hu : AllUndriven S h)
    (hn : arb.n.dot arb.n = 1) (hbo : c.bounce = 0) (hs : arb.surface_vr.dot arb.n = 0) (hj : 0 ≤ c.jnAcc)
    (hk : c.nMass = 1 / kScalar h arb.a arb.b c.r1 c.r2 arb.n) (hk' : c.tMass = 1 / kScalar h arb.a arb.b c.r1 c.r2 arb.n.perp)
    (hf : (arb.applyContact h c).2.jtAcc = c.jtAcc ∨ (arb.surface_vr.dot arb.n.perp = 0 ∧ |c.jtAcc| ≤ arb.u * (arb.applyContact h c).2.jnAcc)) :
    AllUndriven S (arb.applyContact h c).1 ∧ energy S (arb.applyContact h c).1 ≤ energy S h := by
  obtain ⟨vn, hvn⟩ : ∃ v, v = (relVel h arb.a arb.b c.r1 c.r2).dot arb.n := ⟨_, rfl⟩
  obtain ⟨vt, hvt⟩ : ∃ v, v = (relVel h arb.a arb.b c.r1 c.r2).dot arb.n.perp := ⟨_, rfl⟩
  obtain ⟨kn, hkn⟩ : ∃ v, v = kScalar h arb.a arb.b c.r1 c.r2 arb.n := ⟨_, rfl⟩
  obtain ⟨kt, hkt⟩ : ∃ v, v = kScalar h arb.a arb.b c.r1 c.r2 arb.n.perp := ⟨_, rfl⟩
  rw [← hkn] at hk
  rw [← hkt] at hk'
  have ma := hu.m_nonneg ha
  have mb := hu.m_nonneg hb
  have ia := hu.i_nonneg ha
  have ib := hu.i_nonneg hb
  -- the normal impulse
  have e1 : (arb.applyContact h c).2.jnAcc = max (c.jnAcc + -vn * (1 / kn)) 0 := by
    simp only [Arb.applyContact, hbo, ← hk]
    congr 2
    rw [hvn]
    simp only [Vec.dot, Vec.add] at hs ⊢
    linear_combination -c.nMass * hs
  obtain ⟨θ, t0, t1, et⟩ := max_share (d := -vn * (1 / kn)) hj
  rw [← e1] at et
  -- the friction
  obtain ⟨τ, s0, s1, es⟩ : ∃ τ, 0 ≤ τ ∧ τ ≤ 1 ∧ (arb.applyContact h c).2.jtAcc - c.jtAcc = τ * (-vt * (1 / kt)) := by
    rcases hf with hf | ⟨hf, hl⟩
    · exact ⟨0, le_rfl, zero_le_one, by rw [hf]; ring⟩
    · obtain ⟨l1, l2⟩ := abs_le.1 hl
      obtain ⟨τ, s0, s1, es⟩ := clamp_share (d := -vt * (1 / kt)) l1 l2
      refine ⟨τ, s0, s1, ?_⟩
      rw [← es]
      congr 1
      simp only [Arb.applyContact, ← hk']
      congr 2
      rw [hvt]
      simp only [Vec.dot, Vec.add] at hf ⊢
      linear_combination -c.tMass * hf
  obtain ⟨dn, hdn⟩ : ∃ d, d = (arb.applyContact h c).2.jnAcc - c.jnAcc := ⟨_, rfl⟩
  obtain ⟨dt, hdt⟩ : ∃ d, d = (arb.applyContact h c).2.jtAcc - c.jtAcc := ⟨_, rfl⟩
  obtain ⟨β, hβ⟩ : ∃ d, d = (arb.applyContact h c).2.jBias - c.jBias := ⟨_, rfl⟩
  have hres : (arb.applyContact h c).1 = applyImpulses (applyBiasImpulses h arb.a arb.b c.r1 c.r2 (arb.n.mult β)) arb.a arb.b c.r1 c.r2 (arb.n.rotate ⟨dn, dt⟩) := by
    rw [hdn, hdt, hβ]; rfl
  rw [hres]
  obtain ⟨u1, b1⟩ := applyBias_energy S h arb.a arb.b c.r1 c.r2 (arb.n.mult β) hu
  have fz := applyBias_frozen h arb.a arb.b c.r1 c.r2 (arb.n.mult β)
  have hv : relVel (applyBiasImpulses h arb.a arb.b c.r1 c.r2 (arb.n.mult β)) arb.a arb.b c.r1 c.r2 = relVel h arb.a arb.b c.r1 c.r2 := by
    have := hab.symm
    simp only [relVel, applyBiasImpulses, Bodies.set, this, hab, if_true, if_false]
  obtain ⟨u2, b2⟩ := applyImpulses_energy S _ arb.a arb.b c.r1 c.r2 (arb.n.rotate ⟨dn, dt⟩) ha hb hab u1
  refine ⟨u2, ?_⟩
  rw [b2, b1, hv, (fz _).m_inv, (fz _).m_inv, (fz _).i_inv, (fz _).i_inv]
  rw [← hdn] at et
  rw [← hdt] at es
  have k0 : 0 ≤ kn := by
    rw [hkn]; simp only [kScalar, kScalarBody]
    nlinarith [mul_nonneg ia (mul_self_nonneg (c.r1.cross arb.n)), mul_nonneg ib (mul_self_nonneg (c.r2.cross arb.n))]
  have k0' : 0 ≤ kt := by
    rw [hkt]; simp only [kScalar, kScalarBody]
    nlinarith [mul_nonneg ia (mul_self_nonneg (c.r1.cross arb.n.perp)), mul_nonneg ib (mul_self_nonneg (c.r2.cross arb.n.perp))]
  have w1 := work_le' (v := vn) k0 t0 t1
  have w2 := work_le' (v := vt) k0' s0 s1
  rw [← et] at w1
  rw [← es] at w2
  -- the coupling of the two
  have q1 := mul_nonneg ia (sq_nonneg (dn * c.r1.cross arb.n - dt * c.r1.cross arb.n.perp))
  have q2 := mul_nonneg ib (sq_nonneg (dn * c.r2.cross arb.n - dt * c.r2.cross arb.n.perp))
  have q3 : 0 ≤ ((h arb.a).m_inv + (h arb.b).m_inv) * (dn ^ 2 + dt ^ 2) := mul_nonneg (by linarith) (by positivity)
  have ew : 2 * (arb.n.rotate ⟨dn, dt⟩).dot (relVel h arb.a arb.b c.r1 c.r2) + ((arb.n.rotate ⟨dn, dt⟩).dot (arb.n.rotate ⟨dn, dt⟩) * ((h arb.a).m_inv + (h arb.b).m_inv) +
      (c.r1.cross (arb.n.rotate ⟨dn, dt⟩)) ^ 2 * (h arb.a).i_inv + (c.r2.cross (arb.n.rotate ⟨dn, dt⟩)) ^ 2 * (h arb.b).i_inv) =
      2 * (dn * vn + dn ^ 2 * kn) + 2 * (dt * vt + dt ^ 2 * kt) - (h arb.a).i_inv * (dn * c.r1.cross arb.n - dt * c.r1.cross arb.n.perp) ^ 2 -
        (h arb.b).i_inv * (dn * c.r2.cross arb.n - dt * c.r2.cross arb.n.perp) ^ 2 - ((h arb.a).m_inv + (h arb.b).m_inv) * (dn ^ 2 + dt ^ 2) := by
    rw [hvn, hvt, hkn, hkt]
    simp only [kScalar, kScalarBody, Vec.dot, Vec.rotate, Vec.cross, Vec.perp] at hn ⊢
    linear_combination ((h arb.a).m_inv + (h arb.b).m_inv) * (dn ^ 2 + dt ^ 2) * hn
  rw [ew]
  linarith

end CP
