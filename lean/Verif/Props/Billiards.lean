import Verif.Spec.Billiards
import Verif.Props.SimPress

/-! # C68: collisions of balls conserve what they should -/

namespace CP
open Sim GoFloat

theorem encounter_unit {s s' : Sim ℝ} {i : SimIn ℝ} {x y : Nat} {cx cy : Circle ℝ} (E : Encounter s s' i x y cx cy) :
    (s'.direction (s.sc.sp.shapes x).body (s.sc.sp.shapes y).body).dot (s'.direction (s.sc.sp.shapes x).body (s.sc.sp.shapes y).body) = 1 := by
  have h := E.apart
  generalize (s.sc.sp.shapes x).body = a at *
  generalize (s.sc.sp.shapes y).body = b at *
  simp only [direction]
  obtain ⟨d, hd⟩ : ∃ d, d = (s'.mo.bodies a).p.distance (s'.mo.bodies b).p := ⟨_, rfl⟩
  have e : d * d = ((s'.mo.bodies b).p.x - (s'.mo.bodies a).p.x) ^ 2 + ((s'.mo.bodies b).p.y - (s'.mo.bodies a).p.y) ^ 2 := by
    rw [hd]
    simp only [Vec.distance, Vec.length, Vec.dot, Vec.sub, sqrt_real]
    rw [Real.mul_self_sqrt (add_nonneg (mul_self_nonneg _) (mul_self_nonneg _))]
    ring
  have hd0 : d ≠ 0 := by
    intro h0
    rw [h0] at e
    refine h (Vec.ext ?_ ?_) <;> nlinarith [sq_nonneg ((s'.mo.bodies b).p.x - (s'.mo.bodies a).p.x), sq_nonneg ((s'.mo.bodies b).p.y - (s'.mo.bodies a).p.y)]
  rw [← hd]
  simp only [Vec.dot, Vec.sub, Vec.mult]
  field_simp
  linear_combination -e

/-- Without gravity, damping and forces the free velocities are those before the step. -/
theorem weightless_vel {s s' : Sim ℝ} {i : SimIn ℝ} {b : Nat} (w : s.Weightless i b) : s.freeVel s' i b = s.velocity b ∧ s.freeSpin s' i b = s.spin b := by
  obtain ⟨w1, w2, w3, w4⟩ := w
  have key : ((s.mo.bodies b).updateVelocity i.gravity (i.damping ^ i.dt) i.dt).v = (s.mo.bodies b).v ∧
      ((s.mo.bodies b).updateVelocity i.gravity (i.damping ^ i.dt) i.dt).w = (s.mo.bodies b).w := by
    rw [w1, w2, Real.one_rpow]
    simp only [Body.updateVelocity]
    split
    · exact ⟨rfl, rfl⟩
    · simp only [w3, w4, Vec.add, Vec.mult]
      constructor
      · ext <;> simp
      · simp
  simp only [freeVel, freeSpin, velocity, spin]
  constructor
  · split
    · exact key.1
    · rfl
  · split
    · exact key.2
    · rfl

/-- A step does not change masses and moments. -/
theorem step_mass {hash : Obj → Nat} {s s' : Sim ℝ} (h : s.Reach hash) {i : SimIn ℝ} (hdt : 0 < i.dt)
    (ok : (Sim.Call.step i).Allowed s) (quiet : (∀ y, i.sepActs y = []) ∧ i.lateActs = []) (run : s.call hash (.step i) = some s') (b : Nat) :
    (s'.mo.bodies b).m = (s.mo.bodies b).m ∧ (s'.mo.bodies b).m_inv = (s.mo.bodies b).m_inv ∧ (s'.mo.bodies b).i = (s.mo.bodies b).i ∧
    (s'.mo.bodies b).i_inv = (s.mo.bodies b).i_inv := by
  obtain ⟨t, hmo, -, t1, t2, t3, -⟩ := C64_step h hdt.ne' ok quiet run
  have fz := tick_frozen s.mo t (by rw [t1]; exact hdt.ne') b
  have sn := seen_v s.mo t b
  rw [hmo]
  exact ⟨fz.m.trans sn.2.2.2.2.1, fz.m_inv.trans sn.2.2.2.2.2.2.1, fz.i.trans sn.2.2.2.2.2.1, fz.i_inv.trans sn.2.2.2.2.2.2.2⟩

/-- The energy after the impulses `J` along and `T` across the line of centres. -/
theorem kicked_pair {A A' B B' : Body ℝ} (hA : A.Undriven) (hB : B.Undriven) (mA : A'.m = A.m) (iA : A'.i = A.i) (mB : B'.m = B.m) (iB : B'.i = B.i)
    {n : Vec ℝ} (hn : n.dot n = 1) {J T ra rb : ℝ}
    (va : A'.v = A.v.sub (((n.mult J).add (n.perp.mult T)).mult A.m_inv)) (wa : A'.w = A.w - A.i_inv * (ra * T))
    (vb : B'.v = B.v.add (((n.mult J).add (n.perp.mult T)).mult B.m_inv)) (wb : B'.w = B.w - B.i_inv * (rb * T)) :
    A'.kineticEnergy + B'.kineticEnergy = A.kineticEnergy + B.kineticEnergy +
      (2 * J * (B.v.sub A.v).dot n + J ^ 2 * (A.m_inv + B.m_inv)) +
      (2 * T * ((B.v.sub A.v).dot n.perp - rb * B.w - ra * A.w) + T ^ 2 * (A.m_inv + B.m_inv + A.i_inv * ra ^ 2 + B.i_inv * rb ^ 2)) := by
  have hc : ∀ r : ℝ, (n.mult r).cross ((n.mult J).add (n.perp.mult T)) = r * T := by
    intro r
    simp only [Vec.cross, Vec.mult, Vec.add, Vec.perp, Vec.dot] at hn ⊢
    linear_combination (r * T) * hn
  have ea := kicked_energy (P := ((n.mult J).add (n.perp.mult T)).neg) (r := n.mult ra) hA mA iA
    (by rw [va]; simp only [Vec.sub, Vec.add, Vec.mult, Vec.neg, Vec.mk.injEq]; constructor <;> ring)
    (by
      rw [wa, ← hc ra]
      simp only [Vec.cross, Vec.neg]; ring)
  have eb := kicked_energy (P := (n.mult J).add (n.perp.mult T)) (r := n.mult (-rb)) hB mB iB vb (by rw [wb, hc]; ring)
  have hc' : (n.mult ra).cross ((n.mult J).add (n.perp.mult T)).neg = -(ra * T) := by
    rw [← hc ra]
    simp only [Vec.cross, Vec.neg]; ring
  rw [ea, eb, hc, hc']
  simp only [Vec.dot, Vec.add, Vec.sub, Vec.mult, Vec.neg, Vec.perp] at hn ⊢
  linear_combination ((J ^ 2 + T ^ 2) * (A.m_inv + B.m_inv)) * hn

/-- **C68.** The total momentum of two balls that meet is what gravity, forces and damping make of it: the collision itself does not change it. -/
theorem C68_momentum {hash : Obj → Nat} {s s' : Sim ℝ} (h : s.Reach hash) {i : SimIn ℝ} (hdt : 0 < i.dt)
    (ok : (Sim.Call.step i).Allowed s) (quiet : (∀ y, i.sepActs y = []) ∧ i.lateActs = []) (run : s.call hash (.step i) = some s')
    {x y : Nat} {cx cy : Circle ℝ} (E : Encounter s s' i x y cx cy) {a b : Nat} (ha : (s.sc.sp.shapes x).body = a) (hb : (s.sc.sp.shapes y).body = b)
    (A : s.Ball a) (B : s.Ball b) :
    s'.momentum a b = ((s.freeVel s' i a).mult (s.mo.bodies a).m).add ((s.freeVel s' i b).mult (s.mo.bodies b).m) := by
  obtain ⟨J, T, -, -, va, vb, -, -⟩ := C64_collision h hdt ok quiet run E
  simp only [ha, hb] at va vb
  simp only [momentum, (step_mass h hdt ok quiet run _).1]
  rw [va, vb]
  have h1 := A.mass.2
  have h2 := B.mass.2
  obtain ⟨P, hP⟩ : ∃ P, P = ((s'.direction a b).mult J).add ((s'.direction a b).perp.mult T) := ⟨_, rfl⟩
  rw [← hP]
  simp only [Vec.mult, Vec.add, Vec.sub, Vec.mk.injEq]
  constructor
  · linear_combination P.x * h2 - P.x * h1
  · linear_combination P.y * h2 - P.y * h1

/-- **C68.** The angular momentum, about any point (here the origin): a collision without friction does not change it. With friction the engine does not
conserve it: the friction acts on each ball at the ball's own surface, and these are as far apart as the balls overlap; so the total changes by the overlap times the
impulse of the friction. -/
theorem C68_turning {hash : Obj → Nat} {s s' : Sim ℝ} (h : s.Reach hash) {i : SimIn ℝ} (hdt : 0 < i.dt)
    (ok : (Sim.Call.step i).Allowed s) (quiet : (∀ y, i.sepActs y = []) ∧ i.lateActs = []) (run : s.call hash (.step i) = some s')
    {x y : Nat} {cx cy : Circle ℝ} (E : Encounter s s' i x y cx cy) {a b : Nat} (ha : (s.sc.sp.shapes x).body = a) (hb : (s.sc.sp.shapes y).body = b)
    (A : s.Ball a) (B : s.Ball b) :
    let pa := (s'.mo.bodies a).p
    let pb := (s'.mo.bodies b).p
    let T := ((s'.velocity b).sub (s.freeVel s' i b)).dot (s'.direction a b).perp * (s.mo.bodies b).m
    s'.turning a pa (s'.velocity a) (s'.spin a) + s'.turning b pb (s'.velocity b) (s'.spin b) =
      s.turning a pa (s.freeVel s' i a) (s.freeSpin s' i a) + s.turning b pb (s.freeVel s' i b) (s.freeSpin s' i b) - s'.overlap a b cx.r cy.r * T ∧
    ((s.surf x).u * (s.surf y).u = 0 → T = 0) := by
  intro pa pb T
  obtain ⟨J, T', -, hT, va, vb, wa, wb⟩ := C64_collision h hdt ok quiet run E
  have hn := encounter_unit E
  have hne := E.apart
  simp only [ha, hb] at va vb wa wb hn hT hne
  have h1 := A.mass.2
  have h2 := B.mass.2
  have h3 := A.moment.2
  have h4 := B.moment.2
  have eT : T = T' := by
    simp only [T]
    rw [vb]
    simp only [Vec.dot, Vec.sub, Vec.add, Vec.mult, Vec.perp] at hn ⊢
    linear_combination (T' * (s.mo.bodies b).m_inv * (s.mo.bodies b).m) * hn + T' * h2
  constructor
  · rw [eT]
    simp only [turning, (step_mass h hdt ok quiet run _).1, (step_mass h hdt ok quiet run _).2.2.1]
    rw [va, vb, wa, wb]
    have hd : pb = pa.add ((s'.direction a b).mult (pa.distance pb)) := by
      have : pa.distance pb ≠ 0 := by
        intro h0
        apply hne
        have e : pa.distance pb * pa.distance pb = (pa.x - pb.x) ^ 2 + (pa.y - pb.y) ^ 2 := by
          simp only [Vec.distance, Vec.length, Vec.dot, Vec.sub, sqrt_real]
          rw [Real.mul_self_sqrt (add_nonneg (mul_self_nonneg _) (mul_self_nonneg _))]; ring
        rw [h0] at e
        show pa = pb
        refine Vec.ext ?_ ?_ <;> nlinarith [sq_nonneg (pa.x - pb.x), sq_nonneg (pa.y - pb.y)]
      simp only [direction]
      change pb = pa.add (((pb.sub pa).mult (1 / pa.distance pb)).mult (pa.distance pb))
      simp only [Vec.add, Vec.mult, Vec.sub]
      ext <;> simp only [] <;> field_simp <;> ring
    have ho : s'.overlap a b cx.r cy.r = cx.r + cy.r - pa.distance pb := rfl
    rw [ho]
    obtain ⟨d, hdd⟩ : ∃ d, d = pa.distance pb := ⟨_, rfl⟩
    rw [← hdd] at hd ⊢
    rw [hd]
    generalize s'.direction a b = n at *
    simp only [Vec.dot, Vec.sub, Vec.add, Vec.mult, Vec.perp, Vec.cross] at hn ⊢
    linear_combination (d * T') * hn - (pa.x * (n.y * J + n.x * T') - pa.y * (n.x * J - n.y * T') + cx.r * T' - cx.r * T') * h1 +
      ((pa.x + n.x * d) * (n.y * J + n.x * T') - (pa.y + n.y * d) * (n.x * J - n.y * T')) * h2 - cx.r * T' * h3 - cy.r * T' * h4
  · intro hu
    rw [eT, hT, hu, zero_mul]
    exact clamp_nothing _

/-- **C68.** The energy: two bodies that nothing drives and nothing pulls lose at least the share `1 - e²` of the energy of their approach when they meet, where `e` is
the product of the elasticities; exactly this if there is no friction. (`KineticEnergy()` is twice the energy.) -/
theorem C68_energy {hash : Obj → Nat} {s s' : Sim ℝ} (h : s.Reach hash) {i : SimIn ℝ} (hdt : 0 < i.dt)
    (ok : (Sim.Call.step i).Allowed s) (quiet : (∀ y, i.sepActs y = []) ∧ i.lateActs = []) (run : s.call hash (.step i) = some s')
    {x y : Nat} {cx cy : Circle ℝ} (E : Encounter s s' i x y cx cy) {a b : Nat} (ha : (s.sc.sp.shapes x).body = a) (hb : (s.sc.sp.shapes y).body = b)
    (free : ∀ z, z = a ∨ z = b → (s.mo.bodies z).Undriven ∧ s.Weightless i z) (coming : s'.parting a b s.velocity ≤ 0)
    (elastic : 0 ≤ (s.surf x).e * (s.surf y).e) (still : (s.surf x).v = (s.surf y).v) :
    let e := (s.surf x).e * (s.surf y).e
    let lost := (1 - e ^ 2) * s'.parting a b s.velocity ^ 2 / ((s.mo.bodies a).m_inv + (s.mo.bodies b).m_inv)
    (0 ≤ (s.surf x).u * (s.surf y).u → energy {a, b} s'.mo.bodies ≤ energy {a, b} s.mo.bodies - lost) ∧
    ((s.surf x).u * (s.surf y).u = 0 → energy {a, b} s'.mo.bodies = energy {a, b} s.mo.bodies - lost) := by
  intro e lost
  obtain ⟨J, T, hJ, hT, va, vb, wa, wb⟩ := C64_collision h hdt ok quiet run E
  have hn := encounter_unit E
  have hab := E.bodies
  have hm := E.masses
  have hi := E.moments
  simp only [ha, hb] at va vb wa wb hn hT hJ hab hm hi
  have fa := weightless_vel (s' := s') (free a (.inl rfl)).2
  have fb := weightless_vel (s' := s') (free b (.inr rfl)).2
  have hsurf : s'.surf = s.surf := by
    obtain ⟨found, arbs, w, start, mid, sp, w', -, -, hs', -⟩ := step_ok h.ok hdt.ne' ok run
    rw [hs']; rfl
  rw [fa.1] at va
  rw [fb.1] at vb
  rw [fa.2] at wa
  rw [fb.2] at wb
  have sl : s'.sliding a b x y cx.r cy.r (s.freeVel s' i) (s.freeSpin s' i) =
      ((s.velocity b).sub (s.velocity a)).dot (s'.direction a b).perp - cy.r * s.spin b - cx.r * s.spin a := by
    simp only [sliding, hsurf, fa, fb, still, Vec.dot, Vec.sub, Vec.add, Vec.perp]; ring
  have pf : s'.parting a b (s.freeVel s' i) = s'.parting a b s.velocity := by simp only [parting, fa, fb]
  rw [sl] at hT
  rw [pf] at hJ
  obtain ⟨ma, -, ia, -⟩ := step_mass h hdt ok quiet run a
  obtain ⟨mb, -, ib, -⟩ := step_mass h hdt ok quiet run b
  have k := kicked_pair (free a (.inl rfl)).1 (free b (.inr rfl)).1 ma ia mb ib hn va wa vb wb
  rw [energy, energy, Finset.sum_pair hab, Finset.sum_pair hab, k]
  have hp : ((s.mo.bodies b).v.sub (s.mo.bodies a).v).dot (s'.direction a b) = s'.parting a b s.velocity := rfl
  have hs : ((s.mo.bodies b).v.sub (s.mo.bodies a).v).dot (s'.direction a b).perp - cy.r * (s.mo.bodies b).w - cx.r * (s.mo.bodies a).w =
    ((s.velocity b).sub (s.velocity a)).dot (s'.direction a b).perp - cy.r * s.spin b - cx.r * s.spin a := rfl
  rw [hp, hs]
  generalize ((s.velocity b).sub (s.velocity a)).dot (s'.direction a b).perp - cy.r * s.spin b - cx.r * s.spin a = q at *
  have hq : 0 < (s.mo.bodies a).m_inv + (s.mo.bodies b).m_inv + (s.mo.bodies a).i_inv * cx.r ^ 2 + (s.mo.bodies b).i_inv * cy.r ^ 2 := by
    have := mul_nonneg hi.1 (sq_nonneg cx.r)
    have := mul_nonneg hi.2 (sq_nonneg cy.r)
    linarith
  simp only [lost]
  change J = max 0 (-(s'.parting a b s.velocity + e * s'.parting a b s.velocity) / _) at hJ
  change 0 ≤ e at elastic
  generalize s'.parting a b s.velocity = v at *
  generalize (s.mo.bodies a).m_inv + (s.mo.bodies b).m_inv + (s.mo.bodies a).i_inv * cx.r ^ 2 + (s.mo.bodies b).i_inv * cy.r ^ 2 = L at *
  generalize (s.mo.bodies a).m_inv + (s.mo.bodies b).m_inv = K at *
  have hJ0 : 0 ≤ J := by rw [hJ]; exact le_max_left _ _
  have t2 : 2 * J * v + J ^ 2 * K = -((1 - e ^ 2) * v ^ 2 / K) := by
    rw [hJ, max_eq_right (div_nonneg (by nlinarith) hm.le)]
    field_simp
    ring
  constructor
  · intro hu
    have t1 : 2 * T * q + T ^ 2 * L ≤ 0 := by
      have hL := mul_nonneg hu hJ0
      obtain ⟨θ, h0, h1, h2⟩ := clamp_share (x := 0) (d := -q / L) (lo := -((s.surf x).u * (s.surf y).u * J)) (hi := (s.surf x).u * (s.surf y).u * J) (by linarith) hL
      rw [zero_add, sub_zero, ← hT] at h2
      have : 2 * T * q + T ^ 2 * L = -(θ * (2 - θ) * q ^ 2 / L) := by rw [h2]; field_simp; ring
      rw [this]
      have : 0 ≤ θ * (2 - θ) * q ^ 2 / L := div_nonneg (mul_nonneg (mul_nonneg h0 (by linarith)) (sq_nonneg q)) hq.le
      linarith
    linarith
  · intro hu
    have : T = 0 := by rw [hT, hu, zero_mul]; exact clamp_nothing _
    rw [this]
    linarith

/-- **C68.** Two balls of equal mass that collide without friction and loss swap what of their velocities is along the line of centres, and keep the rest and their spins. -/
theorem C68_swap {hash : Obj → Nat} {s s' : Sim ℝ} (h : s.Reach hash) {i : SimIn ℝ} (hdt : 0 < i.dt)
    (ok : (Sim.Call.step i).Allowed s) (quiet : (∀ y, i.sepActs y = []) ∧ i.lateActs = []) (run : s.call hash (.step i) = some s')
    {x y : Nat} {cx cy : Circle ℝ} (E : Encounter s s' i x y cx cy) {a b : Nat} (ha : (s.sc.sp.shapes x).body = a) (hb : (s.sc.sp.shapes y).body = b)
    (free : ∀ z, z = a ∨ z = b → s.Weightless i z) (coming : s'.parting a b s.velocity ≤ 0)
    (elastic : (s.surf x).e * (s.surf y).e = 1) (smooth : (s.surf x).u * (s.surf y).u = 0) (equal : (s.mo.bodies a).m_inv = (s.mo.bodies b).m_inv) :
    let n := s'.direction a b
    ((s'.velocity a).dot n = (s.velocity b).dot n ∧ (s'.velocity b).dot n = (s.velocity a).dot n) ∧
    ((s'.velocity a).dot n.perp = (s.velocity a).dot n.perp ∧ (s'.velocity b).dot n.perp = (s.velocity b).dot n.perp) ∧
    s'.spin a = s.spin a ∧ s'.spin b = s.spin b := by
  intro n
  obtain ⟨J, T, hJ, hT, va, vb, wa, wb⟩ := C64_collision h hdt ok quiet run E
  have hn : n.dot n = 1 := by have := encounter_unit E; simpa only [ha, hb] using this
  have hm := E.masses
  simp only [ha, hb] at va vb wa wb hT hJ hm
  have fa := weightless_vel (s' := s') (free a (.inl rfl))
  have fb := weightless_vel (s' := s') (free b (.inr rfl))
  have pf : s'.parting a b (s.freeVel s' i) = s'.parting a b s.velocity := by simp only [parting, fa, fb]
  have hT0 : T = 0 := by rw [hT, smooth, zero_mul]; exact clamp_nothing _
  rw [pf, elastic, equal] at hJ
  rw [equal] at hm
  rw [fa.1, hT0] at va
  rw [fb.1, hT0, ← equal] at vb
  rw [fa.2, hT0] at wa
  rw [fb.2, hT0] at wb
  have hm' : (0 : ℝ) < (s.mo.bodies b).m_inv := by linarith
  have hJ' : J * (s.mo.bodies a).m_inv = -s'.parting a b s.velocity := by
    rw [hJ, max_eq_right (div_nonneg (by linarith) hm.le), equal]
    field_simp
  have hp : s'.parting a b s.velocity = ((s.velocity b).sub (s.velocity a)).dot n := rfl
  rw [hp] at hJ'
  change s'.velocity a = (s.velocity a).sub (((n.mult J).add (n.perp.mult 0)).mult (s.mo.bodies a).m_inv) at va
  change s'.velocity b = (s.velocity b).add (((n.mult J).add (n.perp.mult 0)).mult (s.mo.bodies a).m_inv) at vb
  rw [va, vb]
  generalize s.velocity a = v at *
  generalize s.velocity b = w at *
  clear_value n
  refine ⟨⟨?_, ?_⟩, ⟨?_, ?_⟩, by rw [wa]; ring, by rw [wb]; ring⟩ <;>
    simp only [Vec.dot, Vec.sub, Vec.add, Vec.mult, Vec.perp] at hn hJ' ⊢
  · linear_combination (-(J * (s.mo.bodies a).m_inv)) * hn - hJ'
  · linear_combination (J * (s.mo.bodies a).m_inv) * hn + hJ'
  · ring
  · ring

/-- **C68.** The right angle of billiards: if one of the two balls was at rest, they go off at a right angle. -/
theorem C68_right_angle {hash : Obj → Nat} {s s' : Sim ℝ} (h : s.Reach hash) {i : SimIn ℝ} (hdt : 0 < i.dt)
    (ok : (Sim.Call.step i).Allowed s) (quiet : (∀ y, i.sepActs y = []) ∧ i.lateActs = []) (run : s.call hash (.step i) = some s')
    {x y : Nat} {cx cy : Circle ℝ} (E : Encounter s s' i x y cx cy) {a b : Nat} (ha : (s.sc.sp.shapes x).body = a) (hb : (s.sc.sp.shapes y).body = b)
    (free : ∀ z, z = a ∨ z = b → s.Weightless i z) (coming : s'.parting a b s.velocity ≤ 0)
    (elastic : (s.surf x).e * (s.surf y).e = 1) (smooth : (s.surf x).u * (s.surf y).u = 0) (equal : (s.mo.bodies a).m_inv = (s.mo.bodies b).m_inv)
    (rest : s.velocity b = ⟨0, 0⟩) : (s'.velocity a).dot (s'.velocity b) = 0 := by
  obtain ⟨⟨h1, h2⟩, ⟨h3, h4⟩, -⟩ := C68_swap h hdt ok quiet run E ha hb free coming elastic smooth equal
  have hn := encounter_unit E
  simp only [ha, hb] at hn
  rw [rest] at h1 h4
  generalize s'.direction a b = n at *
  simp only [Vec.dot, Vec.perp] at *
  linear_combination ((s'.velocity a).x * n.x + (s'.velocity a).y * n.y) * h2 + ((s'.velocity a).x * -n.y + (s'.velocity a).y * n.x) * h4 -
    ((s'.velocity a).x * (s'.velocity b).x + (s'.velocity a).y * (s'.velocity b).y) * hn + ((s.velocity a).x * n.x + (s.velocity a).y * n.y) * h1

end CP
