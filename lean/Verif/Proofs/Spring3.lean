import Verif.Proofs.Spring2
import Verif.Props.Push

/-! # A spring between two bodies that move along a line -/

namespace CP
open GoFloat

/-- A spring of the given settings between the centres of gravity. -/
structure Centred (j jn : DampedSpring ℝ) (h : Bodies ℝ) : Prop where
  a : jn.a = j.a
  b : jn.b = j.b
  force : jn.force = j.force
  damping : jn.damping = j.damping
  anchorA : jn.anchorA = (h j.a).cog
  anchorB : jn.anchorB = (h j.b).cog

theorem offset_cog (b : Body ℝ) : anchorOffset b b.cog = ⟨0, 0⟩ := by
  simp [anchorOffset, Transform.vect, Vec.sub]

theorem length_unit {e : Vec ℝ} (he : e.dot e = 1) {d : ℝ} (hd : 0 < d) : (e.mult d).length = d := by
  have h := (e.mult d).length_sq
  have h2 : (e.mult d).dot (e.mult d) = d ^ 2 := by
    simp only [Vec.dot, Vec.mult] at he ⊢
    linear_combination d ^ 2 * he
  rw [h2] at h
  have h3 : 0 ≤ (e.mult d).length := by simp only [Vec.length]; exact Real.sqrt_nonneg _
  nlinarith

theorem spring_line_step {ms : Nat → Motion ℝ} {ts : Nat → Tick ℝ} {dt : ℝ} {k : Nat} {j : DampedSpring ℝ} (S : Swinging ms ts dt k j.a j.b)
    (hg : ∀ n, (ts n).gravity = ⟨0, 0⟩) (hsv : Solvable (ms 0).bodies j.a j.b) (hf : j.force = DampedSpring.defaultForce j.restLength j.stiffness)
    {e : Vec ℝ} (he : e.dot e = 1) {n : Nat} (A : Swinging.At ms j.a j.b n) {jn : DampedSpring ℝ} (hj : (ms n).joints k = .spring jn) (C : Centred j jn (ms 0).bodies)
    {d u : ℝ} (hl : Lined (ms n).bodies j.a j.b e d u) (hd : 0 < d + u * dt) :
    (∃ jn', (ms (n + 1)).joints k = .spring jn' ∧ Centred j jn' (ms 0).bodies) ∧
    Lined (ms (n + 1)).bodies j.a j.b e (d + u * dt) (Real.exp (-(j.damping * (((ms 0).bodies j.a).m_inv + ((ms 0).bodies j.b).m_inv) * dt)) *
      (u - j.stiffness * (((ms 0).bodies j.a).m_inv + ((ms 0).bodies j.b).m_inv) * dt * (d + u * dt - j.restLength))) := by
  have hdt := (S.sole n).pos.ne'
  have hu : (ts n).Unforced (ms n) k := ⟨S.damping n, fun x hx => A.f x (by rw [hj, Joint.con, C.a, C.b] at hx; exact hx)⟩
  have hsn : Solvable (ms n).bodies jn.a jn.b := by
    rw [C.a, C.b]
    exact ⟨by rw [(A.inertia _).1, (A.inertia _).1]; exact hsv.m, by rw [(A.inertia _).2]; exact hsv.ia, by rw [(A.inertia _).2]; exact hsv.ib⟩
  have hra : (⟨0, 0⟩ : Vec ℝ) = anchorOffset ((ms n).seen (ts n) jn.a) jn.anchorA := by
    rw [C.a, C.anchorA, ← A.cog, ← seen_cog (ms n) (ts n), offset_cog]
  have hrb : (⟨0, 0⟩ : Vec ℝ) = anchorOffset ((ms n).seen (ts n) jn.b) jn.anchorB := by
    rw [C.b, C.anchorB, ← A.cog, ← seen_cog (ms n) (ts n), offset_cog]
  have pa := carried_pos (S.carried n j.a (.inl rfl))
  have pb := carried_pos (S.carried n j.b (.inr rfl))
  rw [(A.bias _ (.inl rfl)).1, S.length n] at pa
  rw [(A.bias _ (.inr rfl)).1, S.length n] at pb
  have hgap : ((ms n).seen (ts n) j.b).p.sub ((ms n).seen (ts n) j.a).p = e.mult (d + u * dt) := by
    rw [pa, pb]
    have h1 := hl.p
    have h2 := hl.v
    simp only [Vec.sub, Vec.mult, Vec.add, Vec.mk.injEq] at h1 h2 ⊢
    constructor
    · linear_combination h1.1 + dt * h2.1
    · linear_combination h1.2 + dt * h2.2
  have hδ : e.mult (d + u * dt) = (((ms n).seen (ts n) jn.b).p.add ⟨0, 0⟩).sub (((ms n).seen (ts n) jn.a).p.add ⟨0, 0⟩) := by
    rw [C.a, C.b, ← hgap]; ext <;> simp [Vec.sub, Vec.add]
  have hlen := length_unit he hd
  have hn : e = (e.mult (d + u * dt)).mult (1 / (e.mult (d + u * dt)).length) := by
    rw [hlen]
    have := hd.ne'
    ext <;> simp only [Vec.mult] <;> field_simp
  obtain ⟨hK, -, hP, tg, hj'⟩ := spring_tick (S.sole n) hj hu (hg n) hsn (S.iterations n) ⟨0, 0⟩ ⟨0, 0⟩ (e.mult (d + u * dt)) e hra hrb hδ (by rw [hlen]; exact hd.ne') hn
  rw [← S.step n] at hP hj'
  refine ⟨⟨_, hj', ?_⟩, ?_, ?_⟩
  · exact ⟨C.a, C.b, C.force, C.damping, C.anchorA, C.anchorB⟩
  · rw [S.step n, (tick_frozen (ms n) (ts n) hdt _).p, (tick_frozen (ms n) (ts n) hdt _).p, hgap]
  · have hy : yields (ms n).bodies jn.a jn.b ⟨0, 0⟩ ⟨0, 0⟩ e = ((ms 0).bodies j.a).m_inv + ((ms 0).bodies j.b).m_inv := by
      simp only [yields, Vec.cross, C.a, C.b, (A.inertia _).1]; ring
    have hr : normalRelVel (ms n).bodies jn.a jn.b ⟨0, 0⟩ ⟨0, 0⟩ e = u := by
      have h2 := hl.v
      simp only [Vec.sub, Vec.mult, Vec.mk.injEq] at h2
      simp only [normalRelVel, relVel, C.a, C.b, Vec.dot, Vec.add, Vec.sub, Vec.mult, Vec.perp] at he ⊢
      linear_combination e.x * h2.1 + e.y * h2.2 + u * he
    rw [hy, hr, hlen, C.force, C.damping, hf, S.length n, DampedSpring.defaultForce, C.a, C.b] at hP
    rw [hy] at hK
    have hva := hP.va
    have hvb := hP.vb
    have h2 := hl.v
    rw [(A.inertia _).1] at hva hvb
    obtain ⟨M, hM⟩ : ∃ M, M = ((ms 0).bodies j.a).m_inv + ((ms 0).bodies j.b).m_inv := ⟨_, rfl⟩
    rw [← hM] at hK hva hvb ⊢
    have hq : -j.damping * dt * M = -(j.damping * M * dt) := by ring
    rw [hq] at hva hvb
    obtain ⟨q, hq⟩ : ∃ q, q = Real.exp (-(j.damping * M * dt)) := ⟨_, rfl⟩
    rw [← hq] at hva hvb ⊢
    obtain ⟨X, hX⟩ : ∃ X, X = q * (u + M * ((j.restLength - (d + u * dt)) * j.stiffness * dt)) - u := ⟨_, rfl⟩
    rw [← hX] at hva hvb
    have e1 : q * (u - j.stiffness * M * dt * (d + u * dt - j.restLength)) = u + X := by rw [hX]; ring
    have e2 : M * (X / M) = X := by field_simp
    rw [e1, hva, hvb]
    rw [hM] at e2
    simp only [Vec.sub, Vec.mult, Vec.add, Vec.mk.injEq] at h2 ⊢
    rw [← hM] at e2
    have e3 : ((ms 0).bodies j.a).m_inv * (X / M) + ((ms 0).bodies j.b).m_inv * (X / M) = X := by rw [← add_mul, ← hM]; exact e2
    constructor
    · linear_combination h2.1 + e.x * e3
    · linear_combination h2.2 + e.y * e3

theorem Lined.measure {h : Bodies ℝ} {a b : Nat} {e : Vec ℝ} {d u : ℝ} (he : e.dot e = 1) (l : Lined h a b e d u) :
    distAlong h a b e = d ∧ speedAlong h a b e = u := by
  rw [distAlong, speedAlong, l.p, l.v]
  simp only [Vec.dot, Vec.mult] at he ⊢
  exact ⟨by linear_combination d * he, by linear_combination u * he⟩

/-- The distance after the next step. -/
theorem along_next {ms : Nat → Motion ℝ} {ts : Nat → Tick ℝ} {dt : ℝ} {k a b : Nat} (S : Swinging ms ts dt k a b)
    {n : Nat} (A : Swinging.At ms a b n) (e : Vec ℝ) :
    distAlong (ms (n + 1)).bodies a b e = distAlong (ms n).bodies a b e + speedAlong (ms n).bodies a b e * dt := by
  have hdt := (S.sole n).pos.ne'
  have pa := carried_pos (S.carried n a (.inl rfl))
  have pb := carried_pos (S.carried n b (.inr rfl))
  rw [(A.bias _ (.inl rfl)).1, S.length n] at pa
  rw [(A.bias _ (.inr rfl)).1, S.length n] at pb
  rw [distAlong, S.step n, (tick_frozen (ms n) (ts n) hdt _).p, (tick_frozen (ms n) (ts n) hdt _).p, pa, pb]
  simp only [distAlong, speedAlong, Vec.dot, Vec.sub, Vec.add, Vec.mult]
  ring

/-- The spring at step `n` of a run along a line. -/
structure OnTrack (ms : Nat → Motion ℝ) (k : Nat) (j : DampedSpring ℝ) (e : Vec ℝ) (n : Nat) : Prop where
  joint : ∃ jn, (ms n).joints k = .spring jn ∧ Centred j jn (ms 0).bodies
  lined : Lined (ms n).bodies j.a j.b e (distAlong (ms n).bodies j.a j.b e) (speedAlong (ms n).bodies j.a j.b e)

theorem OnTrack.next {ms : Nat → Motion ℝ} {ts : Nat → Tick ℝ} {dt : ℝ} {k : Nat} {j : DampedSpring ℝ} (S : Swinging ms ts dt k j.a j.b)
    (hj : (ms 0).joints k = .spring j) (hg : ∀ n, (ts n).gravity = ⟨0, 0⟩) (hsv : Solvable (ms 0).bodies j.a j.b)
    (hf : j.force = DampedSpring.defaultForce j.restLength j.stiffness) {e : Vec ℝ} (he : e.dot e = 1) {n : Nat} (O : OnTrack ms k j e n)
    (hpos : 0 < distAlong (ms (n + 1)).bodies j.a j.b e) : OnTrack ms k j e (n + 1) ∧
      (distAlong (ms (n + 1)).bodies j.a j.b e - j.restLength, speedAlong (ms (n + 1)).bodies j.a j.b e * dt) =
        springStep (j.stiffness * (((ms 0).bodies j.a).m_inv + ((ms 0).bodies j.b).m_inv) * dt ^ 2)
          (Real.exp (-(j.damping * (((ms 0).bodies j.a).m_inv + ((ms 0).bodies j.b).m_inv) * dt)))
          (distAlong (ms n).bodies j.a j.b e - j.restLength) (speedAlong (ms n).bodies j.a j.b e * dt) := by
  have hcon : ∀ n, ((ms n).joints k).con.a = j.a ∧ ((ms n).joints k).con.b = j.b := by
    intro n; rw [S.con n, hj]; exact ⟨rfl, rfl⟩
  obtain ⟨jn, h1, h2⟩ := O.joint
  have hn := along_next S (S.at hcon n) e
  obtain ⟨h4, h5⟩ := spring_line_step S hg hsv hf he (S.at hcon n) h1 h2 O.lined (by rw [← hn]; exact hpos)
  obtain ⟨m1, m2⟩ := h5.measure he
  refine ⟨⟨h4, by rw [m1, m2]; exact h5⟩, ?_⟩
  rw [m1, m2]
  simp only [springStep, Prod.mk.injEq]
  exact ⟨by ring, by ring⟩

end CP
