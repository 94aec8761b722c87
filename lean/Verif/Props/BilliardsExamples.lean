import Verif.Props.Billiards
import Verif.Props.SimBounceExamples

/-! # C68: an example -/

namespace CP
open Sim GoFloat

/-- C68_momentum, C68_turning, C68_energy, C68_swap and C68_right_angle apply: a ball runs into another one that is at rest, without friction and loss. It stops, the other
one goes on with its velocity, and the energy is what it was. -/
theorem chase_billiards : ∃ s s' : Sim ℝ, ∃ cx cy : Circle ℝ, s.Reach id ∧ s.call id (.step chaseIn) = some s' ∧ Encounter s s' chaseIn 1 2 cx cy ∧
    (s.Ball 1 ∧ s.Ball 2) ∧ (∀ z, z = 1 ∨ z = 2 → (s.mo.bodies z).Undriven ∧ s.Weightless chaseIn z) ∧ s'.parting 1 2 s.velocity = -1 ∧
    (s.velocity 1 = ⟨1, 0⟩ ∧ s.velocity 2 = ⟨0, 0⟩) ∧ s'.velocity 1 = ⟨0, 0⟩ ∧ s'.velocity 2 = ⟨1, 0⟩ ∧ energy {1, 2} s'.mo.bodies = 1 := by
  obtain ⟨s, s', cx, cy, hr, run, E, -, ⟨b1, b2⟩, hmo, hsurf, hdir, -⟩ := chase_encounter 2 1 ⟨1, 0, ⟨0, 0⟩⟩ one_pos (by norm_num) (by norm_num)
  have hdt : 0 < chaseIn.dt := by norm_num [chaseIn]
  have quiet : (∀ y, (chaseIn).sepActs y = []) ∧ (chaseIn).lateActs = [] := ⟨fun _ => rfl, rfl⟩
  have v1 : s.velocity 1 = ⟨1, 0⟩ := by simp [velocity, hmo, chaseMotion, chaseBody]
  have v2 : s.velocity 2 = ⟨0, 0⟩ := by simp [velocity, hmo, chaseMotion, chaseBody]
  have pv : s'.parting 1 2 s.velocity = -1 := by simp [parting, v1, v2, hdir, Vec.sub, Vec.dot]
  have ball : s.Ball 1 ∧ s.Ball 2 := by
    rw [show s = s from rfl]
    refine ⟨⟨?_, ?_⟩, ⟨?_, ?_⟩⟩ <;> rw [hmo] <;> norm_num [chaseMotion, chaseBody]
  have hw : ∀ z, z = 1 ∨ z = 2 → (s.mo.bodies z).Undriven ∧ s.Weightless chaseIn z := by
    rintro z (rfl | rfl)
    · exact ⟨⟨.inl ball.1.mass, .inl ball.1.moment⟩, rfl, rfl, by rw [hmo]; exact ⟨rfl, rfl⟩⟩
    · exact ⟨⟨.inl ball.2.mass, .inl ball.2.moment⟩, rfl, rfl, by rw [hmo]; exact ⟨rfl, rfl⟩⟩
  obtain ⟨⟨h1, h2⟩, ⟨h3, h4⟩, -⟩ := C68_swap hr hdt chase_ok quiet run E b1 b2 (fun z hz => (hw z hz).2) (by rw [pv]; norm_num) (by rw [hsurf]; norm_num) (by rw [hsurf]; norm_num)
    (by rw [hmo]; norm_num [chaseMotion, chaseBody])
  obtain ⟨-, en⟩ := C68_energy hr hdt chase_ok quiet run E b1 b2 hw (by rw [pv]; norm_num) (by rw [hsurf]; norm_num) (by rw [hsurf])
  simp only [hdir, v1, v2, Vec.dot, Vec.perp] at h1 h2 h3 h4
  norm_num at h1 h2 h3 h4
  refine ⟨s, s', cx, cy, hr, run, E, ball, hw, pv, ⟨v1, v2⟩, Vec.ext h1 h3, Vec.ext h2 h4, ?_⟩
  rw [en (by rw [hsurf]; norm_num), energy, Finset.sum_pair (by decide), kineticEnergy_eq, kineticEnergy_eq, hmo, hsurf]
  norm_num [chaseMotion, chaseBody, Vec.dot]

end CP
