import Verif.Proofs.Alone2

/-! # Joints that are alone on their bodies: pins, pivots and grooves -/

namespace CP
open GoFloat

theorem pull_add (h : Bodies ℝ) {a b : Nat} (hab : a ≠ b) (ra rb P Q : Vec ℝ) :
    applyImpulses (applyImpulses h a b ra rb P) a b ra rb Q = applyImpulses h a b ra rb (P.add Q) := by
  have hba := hab.symm
  funext z
  simp only [applyImpulses, Bodies.set, hab, hba, if_true, if_false]
  by_cases e1 : z = b
  · simp only [e1, hba, if_true, if_false, Body.mk.injEq, true_and, and_true, Vec.mk.injEq, Vec.add]
    exact ⟨⟨by ring, by ring⟩, by ring⟩
  · by_cases e2 : z = a
    · simp only [e2, hab, if_true, if_false, Body.mk.injEq, true_and, and_true, Vec.mk.injEq, Vec.add]
      exact ⟨⟨by ring, by ring⟩, by ring⟩
    · simp only [e1, e2, if_false]

theorem pulled_relVel {h h' : Bodies ℝ} {a b : Nat} {ra rb P : Vec ℝ} (k : Pulled h h' a b ra rb P) :
    relVel h' a b ra rb = (relVel h a b ra rb).add (response h a b ra rb P) := by
  simp only [relVel, k.va, k.wa, k.vb, k.wb, response]
  ext <;> simp only [Vec.add, Vec.sub, Vec.mult, Vec.perp] <;> ring

theorem response_add (h : Bodies ℝ) (a b : Nat) (ra rb P Q : Vec ℝ) : response h a b ra rb (P.add Q) = (response h a b ra rb P).add (response h a b ra rb Q) := by
  simp only [response]
  ext <;> simp only [Vec.add, Vec.mult, Vec.perp, Vec.cross] <;> ring

theorem response_inj (h : Bodies ℝ) (a b : Nat) (s : Solvable h a b) (ra rb P Q : Vec ℝ) (e : response h a b ra rb P = response h a b ra rb Q) : P = Q := by
  have h1 := s.m
  have h2 := s.ia
  have h3 := s.ib
  have d : response h a b ra rb (P.sub Q) = ⟨0, 0⟩ := by
    simp only [response, Vec.add, Vec.mult, Vec.perp, Vec.cross, Vec.sub, Vec.mk.injEq] at e ⊢
    exact ⟨by linear_combination e.1, by linear_combination e.2⟩
  obtain ⟨D, hD⟩ : ∃ D, D = P.sub Q := ⟨_, rfl⟩
  rw [← hD] at d
  have q : ((h a).m_inv + (h b).m_inv) * (D.x ^ 2 + D.y ^ 2) + (h a).i_inv * ra.cross D ^ 2 + (h b).i_inv * rb.cross D ^ 2 = 0 := by
    simp only [response, Vec.add, Vec.mult, Vec.perp, Vec.cross, Vec.mk.injEq] at d ⊢
    linear_combination D.x * d.1 + D.y * d.2
  have q1 : 0 ≤ (h a).i_inv * ra.cross D ^ 2 := mul_nonneg h2 (sq_nonneg _)
  have q2 : 0 ≤ (h b).i_inv * rb.cross D ^ 2 := mul_nonneg h3 (sq_nonneg _)
  have q3 : ((h a).m_inv + (h b).m_inv) * (D.x ^ 2 + D.y ^ 2) ≤ 0 := by linarith
  have q4 : D.x ^ 2 + D.y ^ 2 ≤ 0 := by
    by_contra hc
    push Not at hc
    have := mul_pos h1 hc
    linarith
  have x0 : D.x = 0 := by nlinarith [sq_nonneg D.x, sq_nonneg D.y]
  have y0 : D.y = 0 := by nlinarith [sq_nonneg D.x, sq_nonneg D.y]
  rw [hD] at x0 y0
  simp only [Vec.sub] at x0 y0
  ext <;> linarith

/-- The pin. -/
theorem pin_tick {m : Motion ℝ} {t : Tick ℝ} {k : Nat} {j : PinJoint ℝ} (hs : t.Sole m k) (hk : m.joints k = .pin j)
    (hsv : Solvable m.bodies j.a j.b) (hit : 0 < t.iterations) (ra rb δ n : Vec ℝ) (hra : ra = anchorOffset (m.seen t j.a) j.anchorA)
    (hrb : rb = anchorOffset (m.seen t j.b) j.anchorB) (hδ : δ = ((m.seen t j.b).p.add rb).sub ((m.seen t j.a).p.add ra)) (h0 : δ.length ≠ 0)
    (hn : n = δ.mult (1 / δ.length)) :
    let free := (m.tick t.free).bodies
    let K := yields m.bodies j.a j.b ra rb n
    let N := (m.share t - 1) * j.jnAcc
    let v := clamp (-biasCoef j.errorBias t.dt * (δ.length - j.dist) / t.dt) (-j.maxBias) j.maxBias
    let J := clamp ((v - normalRelVel free j.a j.b ra rb n) / K - N) (-(j.maxForce * t.dt)) (j.maxForce * t.dt)
    0 < K ∧ n.dot n = 1 ∧ Pulled free (m.tick t).bodies j.a j.b ra rb (n.mult (J + N)) ∧ ((m.tick t).joints k).getImpulse = |J| := by
  intro free K N v J
  have hab : j.a ≠ j.b := by have := hs.ne; rw [hk] at this; exact this
  have ff := free_frozen m t hs.pos.ne' hs.dyn
  have hn1 : n.dot n = 1 := by
    rw [hn]
    have h2 := δ.length_sq
    simp only [Vec.dot, Vec.mult] at h2 ⊢
    field_simp
    linarith
  have hK : 0 < K := by
    have := hsv.kScalar_pos ra rb n
    have e : kScalar m.bodies j.a j.b ra rb n = K := by simp only [kScalar, kScalarBody, K, yields]; ring
    rw [e] at this; exact this
  refine ⟨hK, hn1, ?_⟩
  have hKs : kScalar (m.seen t) j.a j.b ra rb n = K := by simp only [kScalar, kScalarBody, K, yields, (seen_inertia m t _).1, (seen_inertia m t _).2]; ring
  have hKf : yields free j.a j.b ra rb n = K := by
    simp only [K, yields, free, (ff _).m_inv, (ff _).i_inv, (seen_inertia m t _).1, (seen_inertia m t _).2]
  obtain ⟨jp, hjp⟩ : ∃ jp, jp = (j.preStep (m.seen t) t.dt).2 := ⟨_, rfl⟩
  have hδ' : (m.seen t j.b).p.add ((anchorOffset (m.seen t j.b) j.anchorB).sub ((m.seen t j.a).p.add (anchorOffset (m.seen t j.a) j.anchorA))) = δ := by
    rw [hδ, hra, hrb]; ext <;> simp only [Vec.add, Vec.sub] <;> ring
  have p1 : jp = { j with r1 := ra, r2 := rb, n := n, nMass := 1 / K, bias := v } := by
    rw [hjp]
    simp only [PinJoint.preStep]
    rw [hδ', if_pos h0, ← hra, ← hrb, ← hn, hKs]
  obtain ⟨h1, h2, h3⟩ := pushed_tick hs hit (a := j.a) (b := j.b) (fun A : ℝ => .pin { jp with jnAcc := A })
    (fun A => applyImpulses free j.a j.b ra rb (n.mult (A + N))) j.jnAcc J (by rw [hk]; rfl) (by rw [hk]; rfl)
    (by
      rw [setup_free hs (by rw [hk]; rfl), hk]
      have e : j.jnAcc + N = j.jnAcc * m.share t := by simp only [N]; ring
      have e' : (Joint.pin j).preStep (m.seen t) t.dt = ((j.preStep (m.seen t) t.dt).1, .pin jp) := by rw [hjp]; rfl
      rw [e']
      simp only [Prod.map, Joint.applyCached, PinJoint.applyCached, id, e, p1]
      rfl)
    (by
      intro A
      have eX : A + (v - normalRelVel (applyImpulses free j.a j.b ra rb (n.mult (A + N))) j.a j.b ra rb n) * (1 / K) =
          (v - normalRelVel free j.a j.b ra rb n) / K - N := by
        rw [(applyImpulses_pulled free j.a j.b hab ra rb (n.mult (A + N))).relVel hn1, hKf]
        have := hK.ne'
        field_simp
        ring
      simp only [Joint.applyImpulse, PinJoint.applyImpulse, Prod.map, id, p1]
      rw [eX, pull_add free hab]
      have : (n.mult (A + N)).add (n.mult (J - A)) = n.mult (J + N) := by ext <;> simp only [Vec.add, Vec.mult] <;> ring
      change (applyImpulses free j.a j.b ra rb ((n.mult (A + N)).add (n.mult (J - A))), _) = _
      rw [this])
  refine ⟨(applyImpulses_pulled free j.a j.b hab ra rb (n.mult (J + N))).of h2 h3, ?_⟩
  rw [h1]
  simp only [Joint.getImpulse, PinJoint.getImpulse, fabs_real]

/-- What both kinds of joints that hold a point do: `g` is the limit. -/
theorem point_call {h : Bodies ℝ} {a b : Nat} (hab : a ≠ b) (s : Solvable h a b) (ra rb v : Vec ℝ) (A N : Vec ℝ) :
    A.add ((kTensor h a b ra rb).transform (v.sub (relVel (applyImpulses h a b ra rb (A.add N)) a b ra rb))) =
      ((kTensor h a b ra rb).transform (v.sub (relVel h a b ra rb))).sub N := by
  have e1 := pulled_relVel (applyImpulses_pulled h a b hab ra rb (A.add N))
  have inv : ∀ x, (kTensor h a b ra rb).transform (response h a b ra rb x) = x := fun x =>
    response_inj h a b s ra rb _ _ (kTensor_spec h a b s ra rb _)
  have lin : ∀ x y, (kTensor h a b ra rb).transform (x.sub y) = ((kTensor h a b ra rb).transform x).sub ((kTensor h a b ra rb).transform y) := by
    intro x y; ext <;> simp only [Mat2.transform, Vec.sub] <;> ring
  rw [e1]
  have e2 : v.sub ((relVel h a b ra rb).add (response h a b ra rb (A.add N))) = (v.sub (relVel h a b ra rb)).sub (response h a b ra rb (A.add N)) := by
    ext <;> simp only [Vec.sub, Vec.add] <;> ring
  rw [e2, lin, inv]
  ext <;> simp only [Vec.sub, Vec.add] <;> ring

/-- The pivot. -/
theorem pivot_tick {m : Motion ℝ} {t : Tick ℝ} {k : Nat} {j : PivotJoint ℝ} (hs : t.Sole m k) (hk : m.joints k = .pivot j)
    (hsv : Solvable m.bodies j.a j.b) (hit : 0 < t.iterations) (ra rb δ : Vec ℝ) (hra : ra = anchorOffset (m.seen t j.a) j.anchorA)
    (hrb : rb = anchorOffset (m.seen t j.b) j.anchorB) (hδ : δ = ((m.seen t j.b).p.add rb).sub ((m.seen t j.a).p.add ra)) :
    let free := (m.tick t.free).bodies
    let N := j.jAcc.mult (m.share t - 1)
    let v := (δ.mult (-biasCoef j.errorBias t.dt / t.dt)).clampLen j.maxBias
    ∃ X, (relVel free j.a j.b ra rb).add (response free j.a j.b ra rb X) = v ∧
      Pulled free (m.tick t).bodies j.a j.b ra rb (((X.sub N).clampLen (j.maxForce * t.dt)).add N) ∧
      ((m.tick t).joints k).getImpulse = ((X.sub N).clampLen (j.maxForce * t.dt)).length := by
  intro free N v
  have hab : j.a ≠ j.b := by have := hs.ne; rw [hk] at this; exact this
  have ff := free_frozen m t hs.pos.ne' hs.dyn
  have hsf : Solvable free j.a j.b := by
    refine ⟨?_, ?_, ?_⟩
    · simp only [free, (ff _).m_inv, (seen_inertia m t _).1]; exact hsv.m
    · simp only [free, (ff _).i_inv, (seen_inertia m t _).2]; exact hsv.ia
    · simp only [free, (ff _).i_inv, (seen_inertia m t _).2]; exact hsv.ib
  have hkt : kTensor (m.seen t) j.a j.b ra rb = kTensor free j.a j.b ra rb := by
    simp only [kTensor, free, (ff _).m_inv, (ff _).i_inv]
  obtain ⟨X, hX⟩ : ∃ X, X = (kTensor free j.a j.b ra rb).transform (v.sub (relVel free j.a j.b ra rb)) := ⟨_, rfl⟩
  obtain ⟨J, hJ⟩ : ∃ J, J = (X.sub N).clampLen (j.maxForce * t.dt) := ⟨_, rfl⟩
  refine ⟨X, ?_, ?_⟩
  · have := kTensor_spec free j.a j.b hsf ra rb (v.sub (relVel free j.a j.b ra rb))
    rw [hX, response, this]
    ext <;> simp only [Vec.add, Vec.sub] <;> ring
  obtain ⟨jp, hjp⟩ : ∃ jp, jp = (j.preStep (m.seen t) t.dt).2 := ⟨_, rfl⟩
  have p1 : jp = { j with r1 := ra, r2 := rb, k := kTensor free j.a j.b ra rb, bias := v } := by
    rw [hjp]
    simp only [PivotJoint.preStep]
    rw [← hra, ← hrb, ← hδ, hkt]
  obtain ⟨h1, h2, h3⟩ := pushed_tick hs hit (a := j.a) (b := j.b) (fun A : Vec ℝ => .pivot { jp with jAcc := A })
    (fun A => applyImpulses free j.a j.b ra rb (A.add N)) j.jAcc J (by rw [hk]; rfl) (by rw [hk]; rfl)
    (by
      rw [setup_free hs (by rw [hk]; rfl), hk]
      have e : j.jAcc.add N = j.jAcc.mult (m.share t) := by simp only [N]; ext <;> simp only [Vec.add, Vec.mult] <;> ring
      have e' : (Joint.pivot j).preStep (m.seen t) t.dt = ((j.preStep (m.seen t) t.dt).1, .pivot jp) := by rw [hjp]; rfl
      rw [e']
      simp only [Prod.map, Joint.applyCached, PivotJoint.applyCached, id, e, p1]
      rfl)
    (by
      intro A
      simp only [Joint.applyImpulse, PivotJoint.applyImpulse, Prod.map, id, p1]
      rw [point_call hab hsf, ← hX, ← hJ, pull_add free hab]
      have : (A.add N).add (J.sub A) = J.add N := by ext <;> simp only [Vec.add, Vec.sub] <;> ring
      rw [this])
  rw [← hJ]
  refine ⟨(applyImpulses_pulled free j.a j.b hab ra rb (J.add N)).of h2 h3, ?_⟩
  rw [h1]
  simp only [Joint.getImpulse, PivotJoint.getImpulse]

end CP
