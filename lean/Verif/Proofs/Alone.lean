import Verif.Spec.Alone
import Verif.Proofs.Spring3

/-! # Joints that are alone on their bodies -/

namespace CP
open GoFloat

/-- The share of a joint's stored impulse with which a step starts. -/
noncomputable def Motion.share (m : Motion ℝ) (t : Tick ℝ) : ℝ := if m.currDt ≠ 0 then t.dt / m.currDt else 0

theorem share_even {m : Motion ℝ} {t : Tick ℝ} {x : ℝ} (hdt : t.dt ≠ 0) (h : t.Evenly m x) : (m.share t - 1) * x = 0 := by
  rcases h with h | h
  · rw [h, mul_zero]
  · rw [Motion.share, h, if_pos hdt, div_self hdt, sub_self, zero_mul]

theorem setup_free {m : Motion ℝ} {t : Tick ℝ} {k : Nat} (hs : t.Sole m k) (h : ((m.joints k).preStep (m.seen t) t.dt).1 = m.seen t) :
    soleSetup m t k = ((m.joints k).preStep (m.seen t) t.dt).2.applyCached (m.tick t.free).bodies (m.share t) := by
  have e : (m.tick t.free).bodies = fun x => if x ∈ t.dyn then (m.seen t x).updateVelocity t.gravity (t.damping ^ t.dt) t.dt else m.seen t x := by
    funext x; exact free_bodies m t hs.pos.ne' hs.dyn x
  rw [soleSetup, h, e]
  rfl

/-- If one call takes every stored impulse to the same result, then so do many. -/
theorem pushed_run {V : Type} {dt : ℝ} (mk : V → Joint ℝ) (push : V → Bodies ℝ) (A1 : V)
    (H : ∀ A, (mk A).applyImpulse (push A) dt = (push A1, mk A1)) : ∀ (n : Nat) (A : V), soleRun dt (n + 1) (push A, mk A) = (push A1, mk A1)
  | 0, A => by simp only [soleRun]; exact H A
  | n + 1, A => by
    have : soleRun dt (n + 1 + 1) (push A, mk A) = soleRun dt (n + 1) ((mk A).applyImpulse (push A) dt) := rfl
    rw [this, H A]
    exact pushed_run mk push A1 H n A1

theorem pushed_tick {V : Type} {m : Motion ℝ} {t : Tick ℝ} {k a b : Nat} (hs : t.Sole m k) (hit : 0 < t.iterations)
    (mk : V → Joint ℝ) (push : V → Bodies ℝ) (A0 A1 : V) (ha : (m.joints k).con.a = a) (hb : (m.joints k).con.b = b)
    (h0 : soleSetup m t k = (push A0, mk A0)) (H : ∀ A, (mk A).applyImpulse (push A) t.dt = (push A1, mk A1)) :
    (m.tick t).joints k = mk A1 ∧ (m.tick t).bodies a = push A1 a ∧ (m.tick t).bodies b = push A1 b := by
  obtain ⟨hj, hx⟩ := sole_tick hs
  obtain ⟨n, hn⟩ : ∃ n, t.iterations = n + 1 := ⟨t.iterations - 1, by omega⟩
  rw [h0, hn, pushed_run mk push A1 H] at hj hx
  exact ⟨hj, hx a (.inl ha.symm), hx b (.inr hb.symm)⟩

theorem spin_add (h : Bodies ℝ) {a b : Nat} (hab : a ≠ b) (x y : ℝ) :
    applySpin (applySpin h a b (fun A => x * A.i_inv) (fun B => x * B.i_inv)) a b (fun A => y * A.i_inv) (fun B => y * B.i_inv) =
      applySpin h a b (fun A => (x + y) * A.i_inv) (fun B => (x + y) * B.i_inv) := by
  have hba := hab.symm
  funext z
  simp only [applySpin, Bodies.set, hab, hba, if_true, if_false]
  by_cases e1 : z = b
  · simp only [e1, if_true]; congr 1; ring
  · by_cases e2 : z = a
    · simp only [e2, hab, if_true, if_false]; congr 1; ring
    · simp only [e1, e2, if_false]

theorem spin_add_ratio (h : Bodies ℝ) {a b : Nat} (hab : a ≠ b) (r x y : ℝ) :
    applySpin (applySpin h a b (fun A => x * A.i_inv * r) (fun B => x * B.i_inv)) a b (fun A => y * A.i_inv * r) (fun B => y * B.i_inv) =
      applySpin h a b (fun A => (x + y) * A.i_inv * r) (fun B => (x + y) * B.i_inv) := by
  have hba := hab.symm
  funext z
  simp only [applySpin, Bodies.set, hab, hba, if_true, if_false]
  by_cases e1 : z = b
  · simp only [e1, if_true]; congr 1; ring
  · by_cases e2 : z = a
    · simp only [e2, hab, if_true, if_false]; congr 1; ring
    · simp only [e1, e2, if_false]

theorem spin_spun (h : Bodies ℝ) {a b : Nat} (hab : a ≠ b) (x : ℝ) :
    Spun h (applySpin h a b (fun A => x * A.i_inv) (fun B => x * B.i_inv)) a b 1 x := by
  have hba := hab.symm
  constructor <;> simp only [applySpin, Bodies.set, hab, hba, if_true, if_false] <;> ring

theorem spin_spun_ratio (h : Bodies ℝ) {a b : Nat} (hab : a ≠ b) (r x : ℝ) :
    Spun h (applySpin h a b (fun A => x * A.i_inv * r) (fun B => x * B.i_inv)) a b r x := by
  have hba := hab.symm
  constructor <;> simp only [applySpin, Bodies.set, hab, hba, if_true, if_false] <;> ring

theorem Spun.of {h h' h'' : Bodies ℝ} {a b : Nat} {ρ P : ℝ} (s : Spun h h' a b ρ P) (ea : h'' a = h' a) (eb : h'' b = h' b) : Spun h h'' a b ρ P :=
  ⟨by rw [ea]; exact s.va, by rw [eb]; exact s.vb, by rw [ea]; exact s.wa, by rw [eb]; exact s.wb⟩

theorem Pulled.of {h h' h'' : Bodies ℝ} {a b : Nat} {ra rb P : Vec ℝ} (s : Pulled h h' a b ra rb P) (ea : h'' a = h' a) (eb : h'' b = h' b) : Pulled h h'' a b ra rb P :=
  ⟨by rw [ea]; exact s.va, by rw [ea]; exact s.wa, by rw [eb]; exact s.vb, by rw [eb]; exact s.wb⟩

/-- The motor: `N` is what the unequal step lengths add to the impulse stored. -/
theorem motor_tick {m : Motion ℝ} {t : Tick ℝ} {k : Nat} {j : SimpleMotor ℝ} (hs : t.Sole m k) (hk : m.joints k = .motor j)
    (hi : 0 < (m.bodies j.a).i_inv + (m.bodies j.b).i_inv) (hit : 0 < t.iterations) :
    let free := (m.tick t.free).bodies
    let K := (m.bodies j.a).i_inv + (m.bodies j.b).i_inv
    let N := (m.share t - 1) * j.jAcc
    let J := clamp (-((free j.b).w - (free j.a).w + j.rate) / K - N) (-(j.maxForce * t.dt)) (j.maxForce * t.dt)
    Spun free (m.tick t).bodies j.a j.b 1 (J + N) ∧ (m.tick t).joints k = .motor { j with iSum := 1 / K, jAcc := J } := by
  intro free K N J
  have hab : j.a ≠ j.b := by have := hs.ne; rw [hk] at this; exact this
  have ff := free_frozen m t hs.pos.ne' hs.dyn
  have ia : (free j.a).i_inv = (m.bodies j.a).i_inv := (ff j.a).i_inv.trans (seen_inertia m t _).2
  have ib : (free j.b).i_inv = (m.bodies j.b).i_inv := (ff j.b).i_inv.trans (seen_inertia m t _).2
  have hK : K ≠ 0 := hi.ne'
  obtain ⟨h1, h2, h3⟩ := pushed_tick hs hit (a := j.a) (b := j.b) (fun A : ℝ => .motor { j with iSum := 1 / K, jAcc := A })
    (fun A => applySpin free j.a j.b (fun B => (A + N) * B.i_inv) (fun B => (A + N) * B.i_inv)) j.jAcc J (by rw [hk]; rfl) (by rw [hk]; rfl)
    (by
      rw [setup_free hs (by rw [hk]; rfl), hk]
      have e : j.jAcc + N = j.jAcc * m.share t := by simp only [N]; ring
      have eK : (m.seen t j.a).i_inv + (m.seen t j.b).i_inv = K := by rw [(seen_inertia m t _).2, (seen_inertia m t _).2]
      simp only [Joint.preStep, SimpleMotor.preStep, Prod.map, Joint.applyCached, SimpleMotor.applyCached, id, e, eK]
      rfl)
    (by
      intro A
      obtain ⟨s1, s2⟩ := spin_apply free j.a j.b hab (fun B => (A + N) * B.i_inv) (fun B => (A + N) * B.i_inv)
      have eJ : clamp (A + -(((applySpin free j.a j.b (fun B => (A + N) * B.i_inv) (fun B => (A + N) * B.i_inv)) j.b).w -
          ((applySpin free j.a j.b (fun B => (A + N) * B.i_inv) (fun B => (A + N) * B.i_inv)) j.a).w + j.rate) * (1 / K)) (-(j.maxForce * t.dt)) (j.maxForce * t.dt) = J := by
        simp only [J]
        congr 1
        rw [s1, s2, ia, ib]
        have : ((m.bodies j.a).i_inv + (m.bodies j.b).i_inv) = K := rfl
        field_simp
        linear_combination (-A - N) * this
      simp only [Joint.applyImpulse, SimpleMotor.applyImpulse, Prod.map, id]
      rw [eJ, spin_add free hab]
      have : A + N + (J - A) = J + N := by ring
      rw [this])
  exact ⟨(spin_spun free hab (J + N)).of h2 h3, h1⟩

/-- The gear. -/
theorem gear_tick {m : Motion ℝ} {t : Tick ℝ} {k : Nat} {j : GearJoint ℝ} (hs : t.Sole m k) (hk : m.joints k = .gear j)
    (hi : (m.bodies j.a).i_inv * j.ratio_inv + j.ratio * (m.bodies j.b).i_inv ≠ 0) (hit : 0 < t.iterations) :
    let free := (m.tick t.free).bodies
    let K := (m.bodies j.a).i_inv * j.ratio_inv + j.ratio * (m.bodies j.b).i_inv
    let N := (m.share t - 1) * j.jAcc
    let v := clamp (-biasCoef j.errorBias t.dt * ((m.seen t j.b).a * j.ratio - (m.seen t j.a).a - j.phase) / t.dt) (-j.maxBias) j.maxBias
    let J := clamp ((v - ((free j.b).w * j.ratio - (free j.a).w)) / K - N) (-(j.maxForce * t.dt)) (j.maxForce * t.dt)
    Spun free (m.tick t).bodies j.a j.b j.ratio_inv (J + N) ∧ (m.tick t).joints k = .gear { j with iSum := 1 / K, bias := v, jAcc := J } := by
  intro free K N v J
  have hab : j.a ≠ j.b := by have := hs.ne; rw [hk] at this; exact this
  have ff := free_frozen m t hs.pos.ne' hs.dyn
  have ia : (free j.a).i_inv = (m.bodies j.a).i_inv := (ff j.a).i_inv.trans (seen_inertia m t _).2
  have ib : (free j.b).i_inv = (m.bodies j.b).i_inv := (ff j.b).i_inv.trans (seen_inertia m t _).2
  have hK : K ≠ 0 := hi
  obtain ⟨h1, h2, h3⟩ := pushed_tick hs hit (a := j.a) (b := j.b) (fun A : ℝ => .gear { j with iSum := 1 / K, bias := v, jAcc := A })
    (fun A => applySpin free j.a j.b (fun B => (A + N) * B.i_inv * j.ratio_inv) (fun B => (A + N) * B.i_inv)) j.jAcc J (by rw [hk]; rfl) (by rw [hk]; rfl)
    (by
      rw [setup_free hs (by rw [hk]; rfl), hk]
      have e : j.jAcc + N = j.jAcc * m.share t := by simp only [N]; ring
      have eK : (m.seen t j.a).i_inv * j.ratio_inv + j.ratio * (m.seen t j.b).i_inv = K := by rw [(seen_inertia m t _).2, (seen_inertia m t _).2]
      simp only [Joint.preStep, GearJoint.preStep, Prod.map, Joint.applyCached, GearJoint.applyCached, id, e, eK]
      rfl)
    (by
      intro A
      obtain ⟨s1, s2⟩ := spin_apply free j.a j.b hab (fun B => (A + N) * B.i_inv * j.ratio_inv) (fun B => (A + N) * B.i_inv)
      have eJ : clamp (A + (v - (((applySpin free j.a j.b (fun B => (A + N) * B.i_inv * j.ratio_inv) (fun B => (A + N) * B.i_inv)) j.b).w * j.ratio -
          ((applySpin free j.a j.b (fun B => (A + N) * B.i_inv * j.ratio_inv) (fun B => (A + N) * B.i_inv)) j.a).w)) * (1 / K)) (-(j.maxForce * t.dt)) (j.maxForce * t.dt) = J := by
        simp only [J]
        congr 1
        rw [s1, s2, ia, ib]
        have : (m.bodies j.a).i_inv * j.ratio_inv + j.ratio * (m.bodies j.b).i_inv = K := rfl
        field_simp
        linear_combination (-A - N) * this
      simp only [Joint.applyImpulse, GearJoint.applyImpulse, Prod.map, id]
      rw [eJ, spin_add_ratio free hab]
      have : A + N + (J - A) = J + N := by ring
      rw [this])
  exact ⟨(spin_spun_ratio free hab j.ratio_inv (J + N)).of h2 h3, h1⟩

end CP
