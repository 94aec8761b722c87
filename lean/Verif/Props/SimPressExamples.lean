import Verif.Props.SimPress
import Verif.Props.SimBounceExamples

/-! # C65: an example

The collision of Props/SimBounceExamples, and one step more. -/

namespace CP
open Sim GoFloat

/-- The situation of C65_step, C65_no_sinking and C65_settle: the circles have just met (they overlap by `2 - (d - v)`), and the next step is made. -/
theorem chase_press (d v : ℝ) (m : Surface ℝ) (hv : 0 < v) (h1 : v < d) (h2 : d < v + 2) : ∃ s s' s'' : Sim ℝ, ∃ cx cy : Circle ℝ,
    s.Reach id ∧ s.call id (.step chaseIn) = some s' ∧ s'.call id (.step chaseIn) = some s'' ∧ Encounter s s' chaseIn 1 2 cx cy ∧
    (cx.r = 1 ∧ cy.r = 1) ∧ ((s.sc.sp.shapes 1).body = 1 ∧ (s.sc.sp.shapes 2).body = 2) ∧ (s.surf 1).e = m.e ∧ (s.surf 2).e = m.e ∧
    (∀ b, b = 1 ∨ b = 2 → s'.engine.awake b ∨ s'.motionless b) ∧ s'.parting 1 2 s.velocity = -v := by
  obtain ⟨s, s', hr, run, v1, v2, k1, k2, k3, k4, k5, ⟨cx, cy, E, r1, r2⟩, b12, hsurf, hdir, size, a1, a2, pv⟩ := chase_full d v m hv h1 h2
  obtain ⟨s'', run', -⟩ := C64_no_panic (.call _ hr chase_ok run) (.step chaseIn) chase_ok (by omega)
  refine ⟨s, s', s'', cx, cy, hr, run, run', E, ⟨r1, r2⟩, b12, by rw [hsurf], by rw [hsurf], ?_, pv⟩
  rintro b (rfl | rfl)
  · exact .inl a1
  · refine .inl (a2 ?_)
    rw [k2]
    intro h
    simp only [Vec.mk.injEq, and_true] at h
    have : 0 < (1 + m.e * m.e) * v / 2 := by nlinarith [mul_self_nonneg m.e, mul_nonneg (mul_self_nonneg m.e) hv.le]
    linarith

/-- C65_no_sinking applies to it. -/
theorem chase_not_sinking (d v : ℝ) (m : Surface ℝ) (hv : 0 < v) (h1 : v < d) (h2 : d < v + 2) : ∃ s s' s'' : Sim ℝ,
    s.Reach id ∧ s.call id (.step chaseIn) = some s' ∧ s'.call id (.step chaseIn) = some s'' ∧ (s'.mo.bodies 1).p.distance (s'.mo.bodies 2).p < 2 ∧
    (s'.mo.bodies 1).p.distance (s'.mo.bodies 2).p ≤ (s''.mo.bodies 1).p.distance (s''.mo.bodies 2).p := by
  obtain ⟨s, s', s'', cx, cy, hr, run, run', E, ⟨r1, r2⟩, ⟨b1, b2⟩, e1, e2, car, pv⟩ := chase_press d v m hv h1 h2
  refine ⟨s, s', s'', hr, run, run', ?_, ?_⟩
  · have := E.close
    rw [b1, b2, r1, r2] at this
    linarith
  · have := C65_no_sinking hr (by norm_num [chaseIn]) rfl chase_ok ⟨fun _ => rfl, rfl⟩ run chase_ok run' E (by rw [b1, b2]; exact car)
      (by norm_num [chaseIn]) (by
        rw [e1, e2, b1, b2, pv]
        have := mul_nonneg (mul_self_nonneg m.e) hv.le
        linarith)
    rwa [b1, b2] at this

/-- C65_settle applies to it. -/
theorem chase_settle (d v : ℝ) (hv : 0 < v) (h1 : v < d) (h2 : d < v + 2) : ∃ ss : Nat → Sim ℝ, Pressing 1 id ss (fun _ => chaseIn) 1 0 0 1 2 1 2 1 1 ∧
    ∀ n < 1, ((ss n).surf 1).e * ((ss n).surf 2).e = 0 := by
  obtain ⟨s, s', s'', cx, cy, hr, run, run', E, ⟨r1, r2⟩, ⟨b1, b2⟩, e1, e2, car, pv⟩ := chase_press d v ⟨0, 0, ⟨0, 0⟩⟩ hv h1 h2
  refine ⟨fun n => if n = 0 then s else if n = 1 then s' else s'', ⟨hr, fun _ _ => chase_ok, fun _ _ => ⟨fun _ => rfl, rfl⟩, ?_, fun _ _ => ⟨rfl, rfl, rfl⟩, ?_, ?_, ?_⟩, ?_⟩
  · intro n hn
    rcases Nat.le_one_iff_eq_zero_or_eq_one.1 hn with rfl | rfl
    · exact run
    · exact run'
  · intro n hn
    obtain rfl : n = 0 := by omega
    exact ⟨b1, b2⟩
  · intro n hn
    obtain rfl : n = 0 := by omega
    exact ⟨cx, cy, E, r1, r2⟩
  · intro n hn
    obtain rfl : n = 0 := by omega
    exact car
  · intro n hn
    obtain rfl : n = 0 := by omega
    show (s.surf 1).e * (s.surf 2).e = 0
    rw [e1, e2]; norm_num

end CP
