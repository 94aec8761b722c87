import Verif.Proofs.Sole
import Verif.Props.Bounce

/-! # Springs: one step -/

namespace CP
open GoFloat

theorem updateVelocity_unforced (b : Body ℝ) (g : Vec ℝ) (dt : ℝ) (hf : b.f = ⟨0, 0⟩) (ht : b.t = 0) :
    (b.updateVelocity g 1 dt).w = b.w ∧ (g = ⟨0, 0⟩ → (b.updateVelocity g 1 dt).v = b.v) ∧ (b.updateVelocity g 1 dt).f = ⟨0, 0⟩ ∧ (b.updateVelocity g 1 dt).t = 0 := by
  simp only [Body.updateVelocity]
  split
  · exact ⟨rfl, fun _ => rfl, hf, ht⟩
  · refine ⟨by simp [ht], ?_, rfl, rfl⟩
    rintro rfl
    simp [hf, Vec.add, Vec.mult]

/-! ### The rotary spring -/

theorem rotary_fix (h : Bodies ℝ) (j : DampedRotarySpring ℝ) (dt : ℝ) (ht : j.targetWrn = (h j.a).w - (h j.b).w) : j.applyImpulse h dt = (h, j) := by
  simp only [DampedRotarySpring.applyImpulse, ht, sub_self, zero_mul, add_zero, sub_zero]
  refine Prod.ext ?_ ?_
  · funext x
    simp only [Bodies.set]
    split <;> split <;> simp_all
  · rw [← ht]

theorem rotary_runs (dt : ℝ) (h : Bodies ℝ) (j : DampedRotarySpring ℝ) (ht : j.targetWrn = (h j.a).w - (h j.b).w) :
    ∀ n, soleRun dt n (h, .rotarySpring j) = (h, .rotarySpring j)
  | 0 => rfl
  | n + 1 => by
    have : (Joint.rotarySpring j).applyImpulse h dt = (h, .rotarySpring j) := by
      simp only [Joint.applyImpulse, rotary_fix h j dt ht, Prod.map, id]
    simp only [soleRun, this]
    exact rotary_runs dt h j ht n

/-- What a step does with a rotary spring that is alone. -/
theorem rotary_tick {m : Motion ℝ} {t : Tick ℝ} {k : Nat} {j : DampedRotarySpring ℝ} (hs : t.Sole m k) (hk : m.joints k = .rotarySpring j) (hu : t.Unforced m k)
    (hi : 0 < (m.bodies j.a).i_inv + (m.bodies j.b).i_inv) (hit : 0 < t.iterations) :
    let K := (m.bodies j.a).i_inv + (m.bodies j.b).i_inv
    let q := Real.exp (-j.damping * t.dt * K)
    let S := j.torque ((m.seen t j.a).a - (m.seen t j.b).a) * t.dt
    let ω := (m.bodies j.a).w - (m.bodies j.b).w
    let J := (ω - q * (ω - K * S)) / K
    ((m.tick t).bodies j.a).w = (m.bodies j.a).w - (m.bodies j.a).i_inv * J ∧ ((m.tick t).bodies j.b).w = (m.bodies j.b).w + (m.bodies j.b).i_inv * J ∧
    ∃ tg, (m.tick t).joints k = .rotarySpring { j with iSum := 1 / K, wCoef := 1 - q, targetWrn := tg, jAcc := 2 * S - J } := by
  intro K q S ω J
  obtain ⟨a, hxa⟩ : ∃ a, a = j.a := ⟨_, rfl⟩
  obtain ⟨b, hxb⟩ : ∃ b, b = j.b := ⟨_, rfl⟩
  have hab : a ≠ b := by have := hs.ne; rw [hk] at this; rw [hxa, hxb]; exact this
  have hba := hab.symm
  obtain ⟨hj, hb⟩ := sole_tick hs
  have hA := hb j.a (by rw [hk]; exact .inl rfl)
  have hB := hb j.b (by rw [hk]; exact .inr rfl)
  obtain ⟨n, hn⟩ : ∃ n, t.iterations = n + 1 := ⟨t.iterations - 1, by omega⟩
  obtain ⟨fa, ta⟩ := hu.forces j.a (by rw [hk]; exact .inl rfl)
  obtain ⟨fb, tb⟩ := hu.forces j.b (by rw [hk]; exact .inr rfl)
  obtain ⟨-, a2, a3, a4, -, -, -, a8⟩ := seen_v m t j.a
  obtain ⟨-, b2, b3, b4, -, -, -, b8⟩ := seen_v m t j.b
  -- the state after preparation and integration
  obtain ⟨h2, hh2⟩ : ∃ h2 : Bodies ℝ, h2 = (soleSetup m t k).1 := ⟨_, rfl⟩
  have ej : (soleSetup m t k).2 = .rotarySpring { j with iSum := 1 / K, wCoef := 1 - q, targetWrn := 0, jAcc := S } := by
    simp only [soleSetup, hk, Joint.preStep, DampedRotarySpring.preStep, Prod.map, Joint.applyCached, DampedRotarySpring.applyCached, id, a8, b8]
    rfl
  have e2 : ∀ x, h2 x = if x ∈ t.dyn then ((applySpin (m.seen t) j.a j.b (fun A => S * A.i_inv) (fun B => S * B.i_inv)) x).updateVelocity t.gravity (t.damping ^ t.dt) t.dt
      else (applySpin (m.seen t) j.a j.b (fun A => S * A.i_inv) (fun B => S * B.i_inv)) x := by
    intro x
    rw [hh2]
    simp only [soleSetup, hk, Joint.preStep, DampedRotarySpring.preStep, Prod.map, Joint.applyCached, DampedRotarySpring.applyCached, id]
    rfl
  have wA : (h2 j.a).w = (m.bodies j.a).w - (m.bodies j.a).i_inv * S ∧ (h2 j.a).i_inv = (m.bodies j.a).i_inv := by
    rw [e2, hu.damping, Real.one_rpow]
    obtain ⟨x, hx⟩ : ∃ x, x = (applySpin (m.seen t) j.a j.b (fun A => S * A.i_inv) (fun B => S * B.i_inv)) j.a := ⟨_, rfl⟩
    have x1 : x.w = (m.bodies j.a).w - (m.bodies j.a).i_inv * S ∧ x.i_inv = (m.bodies j.a).i_inv ∧ x.f = ⟨0, 0⟩ ∧ x.t = 0 := by
      rw [hx]
      rw [← hxa, ← hxb] at *
      simp only [applySpin, Bodies.set, hab, if_true, if_false, a2, a3, a4, a8, fa, ta]
      refine ⟨by ring, trivial, trivial, trivial⟩
    rw [← hx]
    split
    · refine ⟨((updateVelocity_unforced x t.gravity t.dt x1.2.2.1 x1.2.2.2).1).trans x1.1, ((updateVelocity_frozen x _ _ _).i_inv).trans x1.2.1⟩
    · exact ⟨x1.1, x1.2.1⟩
  have wB : (h2 j.b).w = (m.bodies j.b).w + (m.bodies j.b).i_inv * S ∧ (h2 j.b).i_inv = (m.bodies j.b).i_inv := by
    rw [e2, hu.damping, Real.one_rpow]
    obtain ⟨x, hx⟩ : ∃ x, x = (applySpin (m.seen t) j.a j.b (fun A => S * A.i_inv) (fun B => S * B.i_inv)) j.b := ⟨_, rfl⟩
    have x1 : x.w = (m.bodies j.b).w + (m.bodies j.b).i_inv * S ∧ x.i_inv = (m.bodies j.b).i_inv ∧ x.f = ⟨0, 0⟩ ∧ x.t = 0 := by
      rw [hx]
      rw [← hxa, ← hxb] at *
      simp only [applySpin, Bodies.set, hba, if_true, if_false, b2, b3, b4, b8, fb, tb]
      refine ⟨by ring, trivial, trivial, trivial⟩
    rw [← hx]
    split
    · refine ⟨((updateVelocity_unforced x t.gravity t.dt x1.2.2.1 x1.2.2.2).1).trans x1.1, ((updateVelocity_frozen x _ _ _).i_inv).trans x1.2.1⟩
    · exact ⟨x1.1, x1.2.1⟩
  have es : soleSetup m t k = (h2, .rotarySpring { j with iSum := 1 / K, wCoef := 1 - q, targetWrn := 0, jAcc := S }) := Prod.ext hh2.symm ej
  -- the first call
  obtain ⟨jp, hjp⟩ : ∃ jp : DampedRotarySpring ℝ, jp = { j with iSum := 1 / K, wCoef := 1 - q, targetWrn := 0, jAcc := S } := ⟨_, rfl⟩
  have hKne : K ≠ 0 := hi.ne'
  obtain ⟨D, hD⟩ : ∃ D, D = (0 - ((h2 j.a).w - (h2 j.b).w)) * (1 - q) * (1 / K) := ⟨_, rfl⟩
  obtain ⟨h3, hh3⟩ : ∃ h3, h3 = (jp.applyImpulse h2 t.dt).1 := ⟨_, rfl⟩
  have hwr : (h2 j.a).w - (h2 j.b).w = ω - K * S := by rw [wA.1, wB.1]; simp only [ω, K]; ring
  have hJ : J = S - D := by
    rw [hD, hwr]; simp only [J]
    field_simp
    ring
  have c1 : (h3 j.a).w = (m.bodies j.a).w - (m.bodies j.a).i_inv * J := by
    have : (h3 j.a).w = (h2 j.a).w + D * (h2 j.a).i_inv := by
      rw [hh3, hjp, hD]
      simp only [DampedRotarySpring.applyImpulse]
      rw [← hxa, ← hxb]
      simp only [Bodies.set, hab, if_true, if_false]
    rw [this, wA.1, wA.2, hJ]; ring
  have c2 : (h3 j.b).w = (m.bodies j.b).w + (m.bodies j.b).i_inv * J := by
    have : (h3 j.b).w = (h2 j.b).w - D * (h2 j.b).i_inv := by
      rw [hh3, hjp, hD]
      simp only [DampedRotarySpring.applyImpulse]
      rw [← hxa, ← hxb]
      simp only [Bodies.set, hba, if_true, if_false]
    rw [this, wB.1, wB.2, hJ]; ring
  obtain ⟨j3, hj3⟩ : ∃ j3, j3 = (jp.applyImpulse h2 t.dt).2 := ⟨_, rfl⟩
  have e3 : ∃ tg, j3 = { j with iSum := 1 / K, wCoef := 1 - q, targetWrn := tg, jAcc := 2 * S - J } := by
    refine ⟨j3.targetWrn, ?_⟩
    · rw [hj3, hjp]
      simp only [DampedRotarySpring.applyImpulse]
      have : S + (0 - ((h2 j.a).w - (h2 j.b).w)) * (1 - q) * (1 / K) = 2 * S - J := by rw [← hD, hJ]; ring
      rw [this]
  have htg : j3.targetWrn = (h3 j3.a).w - (h3 j3.b).w := by
    have q1 : j3.a = j.a ∧ j3.b = j.b := by obtain ⟨tg, e⟩ := e3; rw [e]; exact ⟨rfl, rfl⟩
    rw [q1.1, q1.2, c1, c2]
    have : j3.targetWrn = ((h2 j.a).w - (h2 j.b).w) + (0 - ((h2 j.a).w - (h2 j.b).w)) * (1 - q) := by rw [hj3, hjp]; rfl
    rw [this, hwr]
    have : K * J = ω - q * (ω - K * S) := by simp only [J]; field_simp
    simp only [K, ω] at this ⊢
    linarith
  have hrun : soleRun t.dt t.iterations (soleSetup m t k) = (h3, .rotarySpring j3) := by
    rw [hn, es, ← hjp]
    have : (Joint.rotarySpring jp).applyImpulse h2 t.dt = (h3, .rotarySpring j3) := by
      simp only [Joint.applyImpulse, Prod.map, id, hh3, hj3]
    simp only [soleRun, this]
    exact rotary_runs t.dt h3 j3 htg n
  rw [hrun] at hj hA hB
  refine ⟨by rw [hA]; exact c1, by rw [hB]; exact c2, ?_⟩
  obtain ⟨tg, e⟩ := e3
  exact ⟨tg, by rw [hj, e]⟩

/-! ### The spring -/

theorem spring_fix (h : Bodies ℝ) (j : DampedSpring ℝ) (dt : ℝ) (ht : j.targetVrn = normalRelVel h j.a j.b j.r1 j.r2 j.n) : j.applyImpulse h dt = (h, j) := by
  simp only [DampedSpring.applyImpulse, ht, sub_self, zero_mul, add_zero]
  refine Prod.ext ?_ ?_
  · have : j.n.mult (0 : ℝ) = ⟨0, 0⟩ := by simp [Vec.mult]
    simp only [this]
    exact applyImpulses_zero _ _ _ _ _ _ rfl rfl
  · rw [← ht]

theorem spring_runs (dt : ℝ) (h : Bodies ℝ) (j : DampedSpring ℝ) (ht : j.targetVrn = normalRelVel h j.a j.b j.r1 j.r2 j.n) :
    ∀ n, soleRun dt n (h, .spring j) = (h, .spring j)
  | 0 => rfl
  | n + 1 => by
    have : (Joint.spring j).applyImpulse h dt = (h, .spring j) := by
      simp only [Joint.applyImpulse, spring_fix h j dt ht, Prod.map, id]
    simp only [soleRun, this]
    exact spring_runs dt h j ht n

theorem Pulled.refl (h : Bodies ℝ) (a b : Nat) (ra rb : Vec ℝ) : Pulled h h a b ra rb ⟨0, 0⟩ := by
  constructor <;> simp [Vec.mult, Vec.cross, Vec.add, Vec.sub]

theorem Pulled.more {h h' h'' : Bodies ℝ} {a b : Nat} {ra rb P Q : Vec ℝ} (k : Pulled h h' a b ra rb P) (l : Pulled h' h'' a b ra rb Q)
    (ha : (h' a).m_inv = (h a).m_inv ∧ (h' a).i_inv = (h a).i_inv) (hb : (h' b).m_inv = (h b).m_inv ∧ (h' b).i_inv = (h b).i_inv) :
    Pulled h h'' a b ra rb (P.add Q) := by
  refine ⟨?_, ?_, ?_, ?_⟩
  · rw [l.va, k.va, ha.1]; ext <;> simp only [Vec.sub, Vec.mult, Vec.add] <;> ring
  · rw [l.wa, k.wa, ha.2]; simp only [Vec.cross, Vec.add]; ring
  · rw [l.vb, k.vb, hb.1]; ext <;> simp only [Vec.mult, Vec.add] <;> ring
  · rw [l.wb, k.wb, hb.2]; simp only [Vec.cross, Vec.add]; ring

theorem applyImpulses_pulled (h : Bodies ℝ) (a b : Nat) (hab : a ≠ b) (ra rb P : Vec ℝ) : Pulled h (applyImpulses h a b ra rb P) a b ra rb P := by
  have hba := hab.symm
  constructor
  · simp only [applyImpulses, Bodies.set, hab, if_false, if_true]; ext <;> simp [Vec.add, Vec.sub, Vec.mult] <;> ring
  · simp only [applyImpulses, Bodies.set, hab, if_false, if_true]; simp [Vec.cross]; ring
  · simp only [applyImpulses, Bodies.set, hba, if_false, if_true]; rfl
  · simp only [applyImpulses, Bodies.set, hba, if_false, if_true]; rfl

/-- The relative velocity along a unit vector after an impulse along it. -/
theorem Pulled.relVel {h h' : Bodies ℝ} {a b : Nat} {ra rb n : Vec ℝ} {J : ℝ} (k : Pulled h h' a b ra rb (n.mult J)) (hn : n.dot n = 1) :
    normalRelVel h' a b ra rb n = normalRelVel h a b ra rb n + J * yields h a b ra rb n := by
  simp only [normalRelVel, CP.relVel, k.va, k.wa, k.vb, k.wb, yields, Vec.dot, Vec.add, Vec.sub, Vec.mult, Vec.perp, Vec.cross] at hn ⊢
  linear_combination (J * ((h a).m_inv + (h b).m_inv)) * hn

/-- What a step does with a spring that is alone. -/
theorem spring_tick {m : Motion ℝ} {t : Tick ℝ} {k : Nat} {j : DampedSpring ℝ} (hs : t.Sole m k) (hk : m.joints k = .spring j) (hu : t.Unforced m k)
    (hg : t.gravity = ⟨0, 0⟩) (hsv : Solvable m.bodies j.a j.b) (hit : 0 < t.iterations) (ra rb δ n : Vec ℝ) (hra : ra = anchorOffset (m.seen t j.a) j.anchorA)
    (hrb : rb = anchorOffset (m.seen t j.b) j.anchorB) (hδ : δ = ((m.seen t j.b).p.add rb).sub ((m.seen t j.a).p.add ra)) (h0 : δ.length ≠ 0)
    (hn : n = δ.mult (1 / δ.length)) :
    let K := yields m.bodies j.a j.b ra rb n
    let q := Real.exp (-j.damping * t.dt * K)
    let S := j.force δ.length * t.dt
    let u := normalRelVel m.bodies j.a j.b ra rb n
    let J := (q * (u + K * S) - u) / K
    0 < K ∧ n.dot n = 1 ∧ Pulled m.bodies (m.tick t).bodies j.a j.b ra rb (n.mult J) ∧
    ∃ tg, (m.tick t).joints k = .spring { j with r1 := ra, r2 := rb, n := n, nMass := 1 / K, vCoef := 1 - q, targetVrn := tg, jAcc := J } := by
  intro K q S u J
  have hab : j.a ≠ j.b := by have := hs.ne; rw [hk] at this; exact this
  have hba := hab.symm
  have hn1 : n.dot n = 1 := by
    rw [hn]
    have h2 := δ.length_sq
    simp only [Vec.dot, Vec.mult] at h2 ⊢
    field_simp
    linarith
  have hK : 0 < K := by
    have := hsv.kScalar_pos ra rb n
    have e : kScalar m.bodies j.a j.b ra rb n = K := by simp only [kScalar, kScalarBody, K, yields]; ring
    rw [e] at this; exact this
  refine ⟨hK, hn1, ?_⟩
  obtain ⟨hj, hb⟩ := sole_tick hs
  have hA := hb j.a (by rw [hk]; exact .inl rfl)
  have hB := hb j.b (by rw [hk]; exact .inr rfl)
  obtain ⟨it, hn'⟩ : ∃ n, t.iterations = n + 1 := ⟨t.iterations - 1, by omega⟩
  obtain ⟨fa, ta⟩ := hu.forces j.a (by rw [hk]; exact .inl rfl)
  obtain ⟨fb, tb⟩ := hu.forces j.b (by rw [hk]; exact .inr rfl)
  obtain ⟨a1, a2, a3, a4, -, -, a7, a8⟩ := seen_v m t j.a
  obtain ⟨b1, b2, b3, b4, -, -, b7, b8⟩ := seen_v m t j.b
  have hKs : kScalar (m.seen t) j.a j.b ra rb n = K := by simp only [kScalar, kScalarBody, K, yields, a7, a8, b7, b8]; ring
  -- the state after preparation and integration
  obtain ⟨h2, hh2⟩ : ∃ h2 : Bodies ℝ, h2 = (soleSetup m t k).1 := ⟨_, rfl⟩
  obtain ⟨jp, hjp⟩ : ∃ jp : DampedSpring ℝ, jp = { j with r1 := ra, r2 := rb, n := n, nMass := 1 / K, vCoef := 1 - q, targetVrn := 0, jAcc := S } := ⟨_, rfl⟩
  have epre : j.preStep (m.seen t) t.dt = (applyImpulses (m.seen t) j.a j.b ra rb (n.mult S), jp) := by
    simp only [DampedSpring.preStep]
    rw [← hra, ← hrb, ← hδ, if_pos h0, ← hn, hKs, hjp]
    rfl
  have ej : (soleSetup m t k).2 = .spring jp := by
    simp only [soleSetup, hk, Joint.preStep, epre, Prod.map, Joint.applyCached, DampedSpring.applyCached, id]
  have e2 : ∀ x, h2 x = if x ∈ t.dyn then ((applyImpulses (m.seen t) j.a j.b ra rb (n.mult S)) x).updateVelocity t.gravity (t.damping ^ t.dt) t.dt
      else (applyImpulses (m.seen t) j.a j.b ra rb (n.mult S)) x := by
    intro x
    rw [hh2]
    simp only [soleSetup, hk, Joint.preStep, epre, Prod.map, Joint.applyCached, DampedSpring.applyCached, id]
  have hP := applyImpulses_pulled (m.seen t) j.a j.b hab ra rb (n.mult S)
  have key : ∀ x, x = j.a ∨ x = j.b → (h2 x).v = ((applyImpulses (m.seen t) j.a j.b ra rb (n.mult S)) x).v ∧ (h2 x).w = ((applyImpulses (m.seen t) j.a j.b ra rb (n.mult S)) x).w ∧
      (h2 x).m_inv = (m.bodies x).m_inv ∧ (h2 x).i_inv = (m.bodies x).i_inv := by
    intro x hx
    obtain ⟨-, -, c3, c4, -, -, c7, c8⟩ := seen_v m t x
    obtain ⟨fx, tx⟩ := hu.forces x (by rw [hk]; exact hx)
    rw [e2, hu.damping, Real.one_rpow, hg]
    obtain ⟨y, hy⟩ : ∃ y, y = (applyImpulses (m.seen t) j.a j.b ra rb (n.mult S)) x := ⟨_, rfl⟩
    have y1 : y.f = ⟨0, 0⟩ ∧ y.t = 0 ∧ y.m_inv = (m.bodies x).m_inv ∧ y.i_inv = (m.bodies x).i_inv := by
      rw [hy, ← fx, ← tx, ← c3, ← c4, ← c7, ← c8]
      rcases hx with rfl | rfl
      · simp only [applyImpulses, Bodies.set, hab, if_true, if_false, and_self]
      · simp only [applyImpulses, Bodies.set, hba, if_true, if_false, and_self]
    rw [← hy]
    split
    · obtain ⟨u1, u2, -⟩ := updateVelocity_unforced y ⟨0, 0⟩ t.dt y1.1 y1.2.1
      have fr := updateVelocity_frozen y ⟨0, 0⟩ 1 t.dt
      exact ⟨u2 rfl, u1, fr.m_inv.trans y1.2.2.1, fr.i_inv.trans y1.2.2.2⟩
    · exact ⟨rfl, rfl, y1.2.2.1, y1.2.2.2⟩
  obtain ⟨ka1, ka2, ka3, ka4⟩ := key j.a (.inl rfl)
  obtain ⟨kb1, kb2, kb3, kb4⟩ := key j.b (.inr rfl)
  have hP2 : Pulled m.bodies h2 j.a j.b ra rb (n.mult S) := by
    refine ⟨?_, ?_, ?_, ?_⟩
    · rw [ka1, hP.va, a1, a7]
    · rw [ka2, hP.wa, a2, a8]
    · rw [kb1, hP.vb, b1, b7]
    · rw [kb2, hP.wb, b2, b8]
  have es : soleSetup m t k = (h2, .spring jp) := Prod.ext hh2.symm ej
  have hv2 : normalRelVel h2 j.a j.b ra rb n = u + S * K := hP2.relVel hn1
  obtain ⟨D, hD⟩ : ∃ D, D = (0 - normalRelVel h2 j.a j.b ra rb n) * (1 - q) * (1 / K) := ⟨_, rfl⟩
  have hJ : J = S + D := by
    rw [hD, hv2]; simp only [J]
    have := hK.ne'
    field_simp
    ring
  obtain ⟨h3, hh3⟩ : ∃ h3, h3 = (jp.applyImpulse h2 t.dt).1 := ⟨_, rfl⟩
  obtain ⟨j3, hj3⟩ : ∃ j3, j3 = (jp.applyImpulse h2 t.dt).2 := ⟨_, rfl⟩
  have e3 : h3 = applyImpulses h2 j.a j.b ra rb (n.mult D) := by rw [hh3, hjp, hD]; rfl
  have hP3 : Pulled m.bodies h3 j.a j.b ra rb (n.mult J) := by
    have := hP2.more (applyImpulses_pulled h2 j.a j.b hab ra rb (n.mult D)) ⟨ka3, ka4⟩ ⟨kb3, kb4⟩
    rw [← e3] at this
    have e : (n.mult S).add (n.mult D) = n.mult J := by rw [hJ]; ext <;> simp [Vec.add, Vec.mult] <;> ring
    rwa [e] at this
  have ej3 : j3 = { j with r1 := ra, r2 := rb, n := n, nMass := 1 / K, vCoef := 1 - q, targetVrn := j3.targetVrn, jAcc := J } := by
    rw [hj3, hjp]
    simp only [DampedSpring.applyImpulse]
    rw [← hD, hJ]
  have htg : j3.targetVrn = normalRelVel h3 j3.a j3.b j3.r1 j3.r2 j3.n := by
    have q1 : j3.a = j.a ∧ j3.b = j.b ∧ j3.r1 = ra ∧ j3.r2 = rb ∧ j3.n = n := by rw [ej3]; exact ⟨rfl, rfl, rfl, rfl, rfl⟩
    rw [q1.1, q1.2.1, q1.2.2.1, q1.2.2.2.1, q1.2.2.2.2, hP3.relVel hn1]
    have : j3.targetVrn = normalRelVel h2 j.a j.b ra rb n + (0 - normalRelVel h2 j.a j.b ra rb n) * (1 - q) := by rw [hj3, hjp]; rfl
    rw [this, hv2]
    simp only [J]
    have := hK.ne'
    change _ = u + (q * (u + K * S) - u) / K * K
    field_simp
    ring
  have hrun : soleRun t.dt t.iterations (soleSetup m t k) = (h3, .spring j3) := by
    rw [hn', es]
    have : (Joint.spring jp).applyImpulse h2 t.dt = (h3, .spring j3) := by
      simp only [Joint.applyImpulse, Prod.map, id, hh3, hj3]
    simp only [soleRun, this]
    exact spring_runs t.dt h3 j3 htg it
  rw [hrun] at hj hA hB
  refine ⟨⟨?_, ?_, ?_, ?_⟩, j3.targetVrn, by rw [hj, ← ej3]⟩
  · rw [hA]; exact hP3.va
  · rw [hA]; exact hP3.wa
  · rw [hB]; exact hP3.vb
  · rw [hB]; exact hP3.wb

end CP
