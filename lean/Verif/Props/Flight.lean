import Verif.Spec.Flight
import Verif.Props.SimFloor
import Verif.Proofs.Spring2

/-! # C67: a body in flight follows the parabola; a dropped ball comes back to its height -/

namespace CP
open Sim GoFloat

theorem Sim.Flying.reach {N : Nat} {hash : Obj → Nat} {ss : Nat → Sim ℝ} {is : Nat → SimIn ℝ} {dt d : ℝ} {g : Vec ℝ} {b : Nat}
    (P : Flying N hash ss is dt d g b) (n : Nat) (hn : n ≤ N) : (ss n).Reach hash := by
  induction n with
  | zero => exact P.start
  | succ n ih => exact .call _ (ih (by omega)) (P.allowed n (by omega)) (P.run n (by omega))

/-- A step of a flight. -/
theorem Sim.Flying.next {N : Nat} {hash : Obj → Nat} {ss : Nat → Sim ℝ} {is : Nat → SimIn ℝ} {dt d : ℝ} {g : Vec ℝ} {b : Nat}
    (P : Flying N hash ss is dt d g b) (hdt : dt ≠ 0) (n : Nat) (hn : n < N) :
    (ss (n + 1)).mo.bodies b = (((ss n).mo.bodies b).updatePosition dt).updateVelocity g (d ^ dt) dt := by
  classical
  obtain ⟨k1, k2, k3⟩ := P.kind n hn
  have := C64_free (P.reach n (by omega)) (by rw [k1]; exact hdt) (P.allowed n hn) (P.quiet n hn) (P.run n hn) (P.awake n (by omega)) (P.free n hn) (P.untouched n hn)
  rw [this, if_neg (P.awake (n + 1) (by omega)).2.2, k1, k2, k3]
  rfl

/-- The numbers of a dynamic body after a step of flight. -/
theorem flight_fields (b : Body ℝ) (g : Vec ℝ) (δ dt : ℝ) (hd : b.type = .dynamic) :
    let b' := (b.updatePosition dt).updateVelocity g δ dt
    b'.type = .dynamic ∧ b'.m_inv = b.m_inv ∧ b'.i_inv = b.i_inv ∧ (b'.f = ⟨0, 0⟩ ∧ b'.t = 0) ∧ (b'.v_bias = ⟨0, 0⟩ ∧ b'.w_bias = 0) ∧
    b'.v = (b.v.mult δ).add ((g.add (b.f.mult b.m_inv)).mult dt) ∧ b'.w = b.w * δ + b.t * b.i_inv * dt ∧
    b'.p = b.p.add ((b.v.add b.v_bias).mult dt) ∧ b'.a = b.a + (b.w + b.w_bias) * dt := by
  have hty : (b.updatePosition dt).type = .dynamic := hd
  have e : (b.updatePosition dt).updateVelocity g δ dt = { b.updatePosition dt with
      v := (b.v.mult δ).add ((g.add (b.f.mult b.m_inv)).mult dt), w := b.w * δ + b.t * b.i_inv * dt, f := ⟨0, 0⟩, t := 0 } := by
    simp only [Body.updateVelocity, hty, reduceCtorEq, if_false]
    rfl
  intro b'
  rw [show b' = _ from e]
  exact ⟨hd, rfl, rfl, ⟨rfl, rfl⟩, ⟨rfl, rfl⟩, rfl, rfl, rfl, rfl⟩

/-- After a step of flight a body is still dynamic, and no force and no push is left over. -/
theorem Sim.Flying.after {N : Nat} {hash : Obj → Nat} {ss : Nat → Sim ℝ} {is : Nat → SimIn ℝ} {dt d : ℝ} {g : Vec ℝ} {b : Nat}
    (P : Flying N hash ss is dt d g b) (hdt : dt ≠ 0) (n : Nat) (h1 : 1 ≤ n) (hn : n ≤ N) :
    ((ss n).mo.bodies b).type = .dynamic ∧ (((ss n).mo.bodies b).f = ⟨0, 0⟩ ∧ ((ss n).mo.bodies b).t = 0) ∧
    (((ss n).mo.bodies b).v_bias = ⟨0, 0⟩ ∧ ((ss n).mo.bodies b).w_bias = 0) := by
  have key : ∀ n : Nat, n + 1 ≤ N → ((ss n).mo.bodies b).type = .dynamic → ((ss (n + 1)).mo.bodies b).type = .dynamic ∧
      (((ss (n + 1)).mo.bodies b).f = ⟨0, 0⟩ ∧ ((ss (n + 1)).mo.bodies b).t = 0) ∧
      (((ss (n + 1)).mo.bodies b).v_bias = ⟨0, 0⟩ ∧ ((ss (n + 1)).mo.bodies b).w_bias = 0) := by
    intro n hn ht
    rw [P.next hdt n (by omega)]
    obtain ⟨q1, -, -, q2, q3, -⟩ := flight_fields ((ss n).mo.bodies b) g (d ^ dt) dt ht
    exact ⟨q1, q2, q3⟩
  have ty : ∀ n : Nat, n ≤ N → ((ss n).mo.bodies b).type = .dynamic := by
    intro n
    induction n with
    | zero => exact fun _ => P.dynamic
    | succ n ih => exact fun h => (key n h (ih (by omega))).1
  obtain ⟨n, rfl⟩ : ∃ k, n = k + 1 := ⟨n - 1, by omega⟩
  exact key n hn (ty n (by omega))

/-- **C67.** A body in flight, whatever happens around it: after `n ≥ 1` steps of length `dt` under the gravity `g`, without damping, it has the velocity `v₀ + n·dt·g` (and
what the forces applied before the first step gave it), its spin is what it was (…), it is on the discrete parabola, and it has turned uniformly. (The first step also carries
out what overlaps it had at the start have to push it.) -/
theorem C67_flight {N : Nat} {hash : Obj → Nat} {ss : Nat → Sim ℝ} {is : Nat → SimIn ℝ} {dt : ℝ} {g : Vec ℝ} {b : Nat}
    (P : Flying N hash ss is dt 1 g b) (hdt : dt ≠ 0) (n : Nat) (h1 : 1 ≤ n) (hn : n ≤ N) :
    let old := (ss 0).mo.bodies b
    let now := (ss n).mo.bodies b
    let T := n * dt
    let kick := (old.f.mult old.m_inv).mult dt
    let twist := old.t * old.i_inv * dt
    now.v = (old.v.add (g.mult T)).add kick ∧ now.w = old.w + twist ∧
    now.p = (((old.p.add (old.v.mult T)).add (g.mult (T * (T - dt) / 2))).add (kick.mult (T - dt))).add (old.v_bias.mult dt) ∧
    now.a = old.a + old.w * T + twist * (T - dt) + old.w_bias * dt := by
  intro old now T kick twist
  have key : ∀ n : Nat, n + 1 ≤ N → ((ss (n + 1)).mo.bodies b).type = .dynamic ∧
      (((ss (n + 1)).mo.bodies b).f = ⟨0, 0⟩ ∧ ((ss (n + 1)).mo.bodies b).t = 0) ∧ (((ss (n + 1)).mo.bodies b).v_bias = ⟨0, 0⟩ ∧ ((ss (n + 1)).mo.bodies b).w_bias = 0) ∧
      ((ss (n + 1)).mo.bodies b).v = (old.v.add (g.mult ((n + 1) * dt))).add kick ∧ ((ss (n + 1)).mo.bodies b).w = old.w + twist ∧
      ((ss (n + 1)).mo.bodies b).p = (((old.p.add (old.v.mult ((n + 1) * dt))).add (g.mult ((n + 1) * dt * ((n + 1) * dt - dt) / 2))).add (kick.mult ((n + 1) * dt - dt))).add (old.v_bias.mult dt) ∧
      ((ss (n + 1)).mo.bodies b).a = old.a + old.w * ((n + 1) * dt) + twist * ((n + 1) * dt - dt) + old.w_bias * dt := by
    intro n
    induction n with
    | zero =>
      intro hN
      rw [P.next hdt 0 (by omega), Real.one_rpow]
      obtain ⟨q1, -, -, q2, q3, q4, q5, q6, q7⟩ := flight_fields old g 1 dt P.dynamic
      refine ⟨q1, q2, q3, q4.trans ?_, q5.trans ?_, q6.trans ?_, q7.trans ?_⟩
      · simp only [kick, Vec.add, Vec.mult]; ext <;> simp <;> ring
      · simp only [twist]; ring
      · simp only [kick, Vec.add, Vec.mult]; ext <;> simp <;> ring
      · simp only [twist]; push_cast; ring
    | succ n ih =>
      intro hN
      obtain ⟨k1, k2, k3, k4, k5, k6, k7⟩ := ih (by omega)
      rw [P.next hdt (n + 1) (by omega), Real.one_rpow]
      obtain ⟨q1, -, -, q2, q3, q4, q5, q6, q7⟩ := flight_fields ((ss (n + 1)).mo.bodies b) g 1 dt k1
      refine ⟨q1, q2, q3, q4.trans ?_, q5.trans ?_, q6.trans ?_, q7.trans ?_⟩
      · rw [k4, k2.1]; simp only [Vec.add, Vec.mult]; push_cast; ext <;> simp only [] <;> ring
      · rw [k5, k2.2]; ring
      · rw [k4, k3.1, k6]; simp only [Vec.add, Vec.mult]; push_cast; ext <;> simp only [] <;> ring
      · rw [k5, k3.2, k7]; push_cast; ring
  obtain ⟨n, rfl⟩ : ∃ k, n = k + 1 := ⟨n - 1, by omega⟩
  obtain ⟨-, -, -, a1, a2, a3, a4⟩ := key n hn
  have hT : T = (n + 1) * dt := by simp only [T]; push_cast; ring
  rw [hT]
  exact ⟨a1, a2, a3, a4⟩

/-- With damping (`δ = damping^dt` is kept of the velocity in each step): the velocity comes closer to the terminal velocity `g·dt/(1-δ)` by the factor `δ` in each step, the spin
dies out by the same factor, and so the body ends up sinking at the terminal velocity. -/
theorem C67_damped {N : Nat} {hash : Obj → Nat} {ss : Nat → Sim ℝ} {is : Nat → SimIn ℝ} {dt d : ℝ} {g : Vec ℝ} {b : Nat}
    (P : Flying N hash ss is dt d g b) (hdt : dt ≠ 0) (hd : d ^ dt ≠ 1) (n : Nat) (h1 : 1 ≤ n) (hn : n ≤ N) :
    let old := (ss 0).mo.bodies b
    let now := (ss n).mo.bodies b
    let δ := d ^ dt
    let last := g.mult (dt / (1 - δ))
    let kick := (old.f.mult old.m_inv).mult dt
    let twist := old.t * old.i_inv * dt
    now.v.sub last = ((old.v.sub last).mult (δ ^ n)).add (kick.mult (δ ^ (n - 1))) ∧
    now.w = old.w * δ ^ n + twist * δ ^ (n - 1) ∧
    now.p = (((old.p.add (last.mult (n * dt))).add ((old.v.sub last).mult (dt * ((1 - δ ^ n) / (1 - δ))))).add
      (kick.mult (dt * ((1 - δ ^ (n - 1)) / (1 - δ))))).add (old.v_bias.mult dt) ∧
    now.a = old.a + old.w * (dt * ((1 - δ ^ n) / (1 - δ))) + twist * (dt * ((1 - δ ^ (n - 1)) / (1 - δ))) + old.w_bias * dt := by
  intro old now δ last kick twist
  have h0 : 1 - δ ≠ 0 := sub_ne_zero.mpr (Ne.symm hd)
  have hV : last = g.mult (dt / (1 - δ)) := rfl
  have g0 : g = last.mult ((1 - δ) / dt) := by rw [hV]; simp only [Vec.mult]; ext <;> simp only [] <;> field_simp
  have key : ∀ n : Nat, n + 1 ≤ N → ((ss (n + 1)).mo.bodies b).type = .dynamic ∧
      (((ss (n + 1)).mo.bodies b).f = ⟨0, 0⟩ ∧ ((ss (n + 1)).mo.bodies b).t = 0) ∧ (((ss (n + 1)).mo.bodies b).v_bias = ⟨0, 0⟩ ∧ ((ss (n + 1)).mo.bodies b).w_bias = 0) ∧
      ((ss (n + 1)).mo.bodies b).v = (((old.v.sub last).mult (δ ^ (n + 1))).add (kick.mult (δ ^ n))).add last ∧
      ((ss (n + 1)).mo.bodies b).w = old.w * δ ^ (n + 1) + twist * δ ^ n ∧
      ((ss (n + 1)).mo.bodies b).p = (((old.p.add (last.mult ((n + 1) * dt))).add ((old.v.sub last).mult (dt * ((1 - δ ^ (n + 1)) / (1 - δ))))).add
        (kick.mult (dt * ((1 - δ ^ n) / (1 - δ))))).add (old.v_bias.mult dt) ∧
      ((ss (n + 1)).mo.bodies b).a = old.a + old.w * (dt * ((1 - δ ^ (n + 1)) / (1 - δ))) + twist * (dt * ((1 - δ ^ n) / (1 - δ))) + old.w_bias * dt := by
    intro n
    induction n with
    | zero =>
      intro hN
      rw [P.next hdt 0 (by omega)]
      obtain ⟨q1, -, -, q2, q3, q4, q5, q6, q7⟩ := flight_fields old g δ dt P.dynamic
      refine ⟨q1, q2, q3, q4.trans ?_, q5.trans ?_, q6.trans ?_, q7.trans ?_⟩
      · rw [g0]; simp only [kick, Vec.add, Vec.mult, Vec.sub]; ext <;> simp only [] <;> field_simp <;> ring
      · simp only [twist]; ring
      · simp only [Vec.add, Vec.mult, Vec.sub]; ext <;> simp only [] <;> field_simp <;> push_cast <;> ring
      · field_simp; ring
    | succ n ih =>
      intro hN
      obtain ⟨k1, k2, k3, k4, k5, k6, k7⟩ := ih (by omega)
      rw [P.next hdt (n + 1) (by omega)]
      obtain ⟨q1, -, -, q2, q3, q4, q5, q6, q7⟩ := flight_fields ((ss (n + 1)).mo.bodies b) g δ dt k1
      refine ⟨q1, q2, q3, q4.trans ?_, q5.trans ?_, q6.trans ?_, q7.trans ?_⟩
      · rw [k4, k2.1]; simp only [Vec.add, Vec.mult, Vec.sub]; ext <;> simp only [g0, Vec.mult] <;> field_simp <;> ring
      · rw [k5, k2.2]; ring
      · rw [k4, k3.1, k6]; simp only [Vec.add, Vec.mult, Vec.sub]; push_cast; ext <;> simp only [] <;> field_simp <;> ring
      · rw [k5, k3.2, k7]; field_simp; ring
  obtain ⟨n, rfl⟩ : ∃ k, n = k + 1 := ⟨n - 1, by omega⟩
  obtain ⟨-, -, -, a1, a2, a3, a4⟩ := key n hn
  refine ⟨?_, a2, ?_, a4⟩
  · rw [show now.v = _ from a1, Nat.add_sub_cancel]; simp only [Vec.add, Vec.sub]; ext <;> simp only [] <;> ring
  · rw [show now.p = _ from a3, Nat.add_sub_cancel]; push_cast; rfl

/-- The push that a ball gets where it lands: exactly what takes the share `1 - collisionBias^dt` of the depth beyond the slop away in the next step, straight up. -/
theorem C67_push {hash : Obj → Nat} {s s' : Sim ℝ} (h : s.Reach hash) {i : SimIn ℝ} (hdt : 0 < i.dt)
    (ok : (Sim.Call.step i).Allowed s) (quiet : (∀ y, i.sepActs y = []) ∧ i.lateActs = []) (run : s.call hash (.step i) = some s')
    {x y : Nat} {cx : Circle ℝ} {sy : Segment ℝ} {q : Vec ℝ} (E : Landing s s' i x y cx sy q)
    (carried : s.engine.awake (s.sc.sp.shapes x).body ∨ s.motionless (s.sc.sp.shapes x).body) (share : i.collisionBias ^ i.dt ≤ 1) :
    let a := (s.sc.sp.shapes x).body
    let u := s'.up a q
    (s'.mo.bodies a).v_bias = u.mult ((1 - i.collisionBias ^ i.dt) * max 0 (s'.depth a u q cx.r sy.r - i.slop) / i.dt) ∧
    (s'.mo.bodies a).w_bias = 0 := by
  intro a u
  obtain ⟨t, k, c, hmo, t1, t2, t3, t5, t6, dy, ⟨mvN, mv⟩, D, st, pos, ha, hb, hn, r1, r2, hsv, he, hu⟩ := C66_duel h hdt ok quiet run E
  obtain ⟨fl, flw⟩ := floor_stays h hdt ok run E.static
  have ca : t.Carries s.mo.bodies (t.contact k).a := by
    rw [ha]
    exact ⟨mvN, carried.imp (mv _).2 id⟩
  have cb : t.Carries s.mo.bodies (t.contact k).b := by
    rw [hb]
    exact ⟨mvN, .inr E.still⟩
  have al : t.Alone s.mo k := ⟨D.iterations, D.once, fun j hj hjk z hz => (D.lone z hz).imp_right fun l => l.others j hj hjk⟩
  have hz : ∀ x, x = (t.contact k).a ∨ x = (t.contact k).b → (s.mo.seen t x).v_bias = ⟨0, 0⟩ ∧ (s.mo.seen t x).w_bias = 0 := by
    rintro x (rfl | rfl)
    · exact move_bias t.dt t.movers _ s.mo.bodies (ca.2.imp id fun h => ⟨h.2.2.1, h.2.2.2⟩)
    · exact move_bias t.dt t.movers _ s.mo.bodies (cb.2.imp id fun h => ⟨h.2.2.1, h.2.2.2⟩)
  have S := alone_shoved s.mo t k c D.pos al D.one D.ne D.unit ⟨D.solvable.1, D.solvable.2.1, D.solvable.2.2⟩ (by rw [t6, t1]; exact share) hz
  have va := S.va
  have wa := S.wa
  have hm : 0 < (s.mo.bodies a).m_inv := by
    have := E.masses
    rwa [E.static.2.1, add_zero] at this
  have hunit := D.unit
  rw [ha, (seen_inertia s.mo t _).1, ← hmo, Arb.overlap, ha, hb, ← pos, ← pos, r1, r2, t1, t5, t6] at va
  rw [ha, ← hmo, r1] at wa
  rw [kScalar, kScalarBody, kScalarBody, (seen_inertia s.mo t _).1, (seen_inertia s.mo t _).2, (seen_inertia s.mo t _).1, (seen_inertia s.mo t _).2, E.static.2.1, E.static.2.2] at va
  obtain ⟨N, hN⟩ : ∃ N, N = (t.contact k).n := ⟨_, rfl⟩
  rw [← hN] at va wa hunit hn
  have hu' : u = N.neg := by rw [hn]; simp [Vec.neg, u, a]
  have hcr : (N.mult cx.r).cross N = 0 := by simp only [Vec.cross, Vec.mult]; ring
  have e1 : (((s'.mo.bodies a).p.add (N.mult cx.r)).sub (q.add (N.mult (-sy.r)))).dot N = s'.depth a u q cx.r sy.r := by
    rw [depth, hu']
    simp only [Vec.dot, Vec.add, Vec.sub, Vec.mult, Vec.neg] at hunit ⊢
    linear_combination (cx.r + sy.r) * hunit
  rw [hcr] at va wa
  rw [e1] at va
  refine ⟨va.trans ?_, wa.trans (by ring)⟩
  rw [hu']
  have hm' : (s.mo.bodies (s.sc.sp.shapes x).body).m_inv ≠ 0 := hm.ne'
  generalize (s.mo.bodies (s.sc.sp.shapes x).body).m_inv = M at hm'
  simp only [Vec.mult, Vec.neg, mul_zero, zero_mul, add_zero]
  have : ∀ P : ℝ, P / M * M = P := fun P => by field_simp
  simp only [this]
  ext <;> simp only [] <;> ring

/-- **C67.** A ball that is let go falls for `N` steps, bounces off a floor, and `n` steps after it landed it is `(e·N·n - N(N+1)/2 - n(n-1)/2)·γ·dt²` above where it was
let go, where `e` is the product of the elasticities and `γ` the gravity; and by what the floor has pushed it out. -/
theorem C67_drop {N M : Nat} {hash : Obj → Nat} {ss : Nat → Sim ℝ} {is : Nat → SimIn ℝ} {dt : ℝ} {g : Vec ℝ} {x y a : Nat} {cx : Circle ℝ} {sy : Segment ℝ} {q u : Vec ℝ}
    (P : Dropped N M hash ss is dt g x y a cx sy q u) (hdt : 0 < dt) (down : g.dot u ≤ 0) (elastic : 0 ≤ ((ss N).surf x).e * ((ss N).surf y).e)
    (share : (is N).collisionBias ^ dt ≤ 1) (n : Nat) (h1 : 1 ≤ n) (hn : n ≤ M) :
    let e := ((ss N).surf x).e * ((ss N).surf y).e
    let γ := -g.dot u
    let push := (1 - (is N).collisionBias ^ dt) * max 0 ((ss (N + 1)).depth a u q cx.r sy.r - (is N).slop)
    (ss (N + 1 + n)).height a u = (ss 0).height a u + (e * N * n - N * (N + 1) / 2 - n * (n - 1) / 2) * (γ * dt ^ 2) + push := by
  intro e γ push
  have hdt' : dt ≠ 0 := hdt.ne'
  obtain ⟨k1, k2, k3⟩ := P.kind
  have reach := P.fall.reach N le_rfl
  -- the fall
  obtain ⟨f1, f2, f3⟩ : ((ss N).mo.bodies a).v.dot u = -(γ * (N * dt)) ∧
      (((ss N).mo.bodies a).p.add ((((ss N).mo.bodies a).v.add ((ss N).mo.bodies a).v_bias).mult dt)).dot u = (ss 0).height a u - N * (N + 1) / 2 * (γ * dt ^ 2) ∧
      (((ss N).mo.bodies a).type = .dynamic ∧ ((ss N).mo.bodies a).f = ⟨0, 0⟩ ∧ ((ss N).mo.bodies a).t = 0) := by
    rcases Nat.eq_zero_or_pos N with rfl | hN
    · refine ⟨by rw [P.rest.1]; simp, ?_, P.fall.dynamic, P.forces⟩
      have r1 := P.rest.1
      have r2 := P.rest.2
      simp only [height, Vec.dot, Vec.add, Vec.mult] at r1 r2 ⊢
      push_cast
      linear_combination dt * r1 + dt * r2
    · obtain ⟨v1, -, v3, -⟩ := C67_flight P.fall hdt' N hN le_rfl
      obtain ⟨a1, a2, a3⟩ := P.fall.after hdt' N hN le_rfl
      have r1 := P.rest.1
      have r2 := P.rest.2
      refine ⟨?_, ?_, a1, a2⟩
      · rw [v1, P.forces.1]
        simp only [γ, Vec.dot, Vec.add, Vec.mult] at r1 ⊢
        linear_combination r1
      · rw [v1, v3, P.forces.1, a3.1]
        simp only [γ, height, Vec.dot, Vec.add, Vec.mult] at r1 r2 ⊢
        linear_combination ((N + 1) * dt) * r1 + dt * r2
  -- the landing
  have B := C66_bounce reach (by rw [k1]; exact hdt) P.allowed P.quiet P.run P.landing
  have V := C67_push reach (by rw [k1]; exact hdt) P.allowed P.quiet P.run P.landing (.inl (by rw [P.ball]; exact P.fall.awake N le_rfl)) (by rw [k1]; exact share)
  obtain ⟨t, k, c, hmo, t1, t2, t3, t5, t6, dy, ⟨mvN, mv⟩, D, st, pos, -⟩ := C66_duel reach (by rw [k1]; exact hdt) P.allowed P.quiet P.run P.landing
  have hs : (ss (N + 1)).height a u = (ss 0).height a u - N * (N + 1) / 2 * (γ * dt ^ 2) := by
    rw [← f2, height, pos a]
    have := move_apply t.dt t.movers mvN (ss N).mo.bodies a
    rw [Motion.seen, this, if_pos ((mv a).2 (P.fall.awake N le_rfl)), t1, k1]
    rfl
  have ff : ((ss (N + 1)).mo.bodies a).f = ⟨0, 0⟩ := by
    rw [hmo]; exact (tick_unforced _ t a f3.2).1
  have aw : (ss (N + 1)).engine.awake a := P.rise.awake 0 (by omega)
  have hfree : ((ss N).freeVel (ss (N + 1)) (is N) a).dot u = -(γ * ((N + 1) * dt)) := by
    have hty : ((ss N).mo.bodies a).type ≠ .kinematic := by rw [f3.1]; decide
    simp only [freeVel, if_pos aw, Body.updateVelocity, if_neg hty, k1, k2, k3, Real.one_rpow, f3.2.1]
    simp only [γ, Vec.dot, Vec.add, Vec.mult] at f1 ⊢
    linear_combination f1
  dsimp only at B V
  rw [P.ball, P.up, hfree] at B
  rw [show (ss N).velocity a = ((ss N).mo.bodies a).v from rfl, f1] at B
  rw [P.ball, P.up, k1] at V
  have hγ : 0 ≤ γ := by simp only [γ]; linarith
  have hB : ((ss (N + 1)).velocity a).dot u = e * (γ * (N * dt)) := by
    rw [B]
    have : 0 ≤ e * (γ * (N * dt)) := by positivity
    rw [max_eq_right]
    · ring
    · have : 0 ≤ γ * ((N + 1) * dt) := by positivity
      simp only [e] at *
      linarith
  have hunit : u.dot u = 1 := by
    rw [← P.up]
    have := (toward_unit P.landing.apart).1
    rw [P.ball, up_neg] at this
    simpa [Vec.dot, Vec.neg] using this
  have hV : ((ss (N + 1)).mo.bodies a).v_bias.dot u * dt = push := by
    rw [V.1]
    simp only [push, Vec.dot, Vec.mult] at hunit ⊢
    have : ∀ X : ℝ, u.x * (X / dt) * u.x + u.y * (X / dt) * u.y = X / dt := fun X => by linear_combination (X / dt) * hunit
    rw [this]
    field_simp
  obtain ⟨-, -, w, -⟩ := C67_flight P.rise hdt' n h1 hn
  rw [height, w]
  simp only [add_zero]
  rw [ff]
  rw [velocity] at hB
  rw [height] at hs
  clear_value push e
  simp only [γ, Vec.dot, Vec.add, Vec.mult] at hB hs hV ⊢
  linear_combination hs + (n * dt) * hB + hV

/-- **C67.** A ball that loses nothing when it bounces (the product of the elasticities is 1) comes back, after as many steps as it fell, to exactly the height from which it was
let go (and what the floor has pushed it out, if it was deeper than the slop when it landed). -/
theorem C67_comes_back {N M : Nat} {hash : Obj → Nat} {ss : Nat → Sim ℝ} {is : Nat → SimIn ℝ} {dt : ℝ} {g : Vec ℝ} {x y a : Nat} {cx : Circle ℝ} {sy : Segment ℝ} {q u : Vec ℝ}
    (P : Dropped N M hash ss is dt g x y a cx sy q u) (hdt : 0 < dt) (down : g.dot u ≤ 0) (elastic : ((ss N).surf x).e * ((ss N).surf y).e = 1)
    (share : (is N).collisionBias ^ dt ≤ 1) (h1 : 1 ≤ N) (hn : N ≤ M) :
    (ss (N + 1 + N)).height a u = (ss 0).height a u + (1 - (is N).collisionBias ^ dt) * max 0 ((ss (N + 1)).depth a u q cx.r sy.r - (is N).slop) := by
  have := C67_drop P hdt down (by rw [elastic]; norm_num) share N h1 hn
  dsimp only at this
  rw [this, elastic]
  ring

/-- **C67.** A ball that gains nothing when it bounces (the product of the elasticities is at most 1) never comes higher than where it was let go (but for what the floor
has pushed it out). -/
theorem C67_not_higher {N M : Nat} {hash : Obj → Nat} {ss : Nat → Sim ℝ} {is : Nat → SimIn ℝ} {dt : ℝ} {g : Vec ℝ} {x y a : Nat} {cx : Circle ℝ} {sy : Segment ℝ} {q u : Vec ℝ}
    (P : Dropped N M hash ss is dt g x y a cx sy q u) (hdt : 0 < dt) (down : g.dot u ≤ 0)
    (elastic : 0 ≤ ((ss N).surf x).e * ((ss N).surf y).e ∧ ((ss N).surf x).e * ((ss N).surf y).e ≤ 1)
    (share : (is N).collisionBias ^ dt ≤ 1) (n : Nat) (h1 : 1 ≤ n) (hn : n ≤ M) :
    (ss (N + 1 + n)).height a u ≤ (ss 0).height a u + (1 - (is N).collisionBias ^ dt) * max 0 ((ss (N + 1)).depth a u q cx.r sy.r - (is N).slop) := by
  have := C67_drop P hdt down elastic.1 share n h1 hn
  dsimp only at this
  rw [this]
  obtain ⟨e, he⟩ : ∃ e, e = ((ss N).surf x).e * ((ss N).surf y).e := ⟨_, rfl⟩
  rw [← he] at elastic ⊢
  have hk : 0 ≤ (-g.dot u) * dt ^ 2 := mul_nonneg (by linarith) (sq_nonneg _)
  have h2 : e * N * n ≤ N * n := by
    have : (0 : ℝ) ≤ N * n := by positivity
    nlinarith [elastic.2]
  have h3 : (0 : ℝ) ≤ (((N : ℝ) - n) ^ 2 + (N - n)) := by
    have : (0 : ℤ) ≤ ((N : ℤ) - n) ^ 2 + (N - n) := by
      rcases le_or_gt 0 ((N : ℤ) - n) with h | h
      · positivity
      · nlinarith
    exact_mod_cast this
  have h4 : (e * N * n - N * (N + 1) / 2 - n * (n - 1) / 2) ≤ 0 := by nlinarith
  have := mul_nonpos_of_nonpos_of_nonneg h4 hk
  linarith

end CP
