import Verif.Proofs.SpaceDirect
import Verif.Proofs.SpaceInv2

/-! # What `SetType` does to the idle times -/

namespace CP
variable {F : Type}
namespace Sp
variable [GoFloat F]

theorem setType_idle {L : Nat → List Nat} {rest : List Nat} {s t : Sp F} (h : Full L rest s) {b : Nat} {new : BType}
    (hr : (s.bodies b).root = none) (hne : s.typ b ≠ new) (e : s.setType b new = some t) :
    (∀ x, (t.bodies x).root = (s.bodies x).root) ∧
    (t.bodies b).idle = (if new = .static then .infinity else .time 0) ∧
    (∀ x, x ≠ b → (s.bodies b).inSpace = true → s.typ b = .kinematic → new = .dynamic → s.Touching b x → s.typ x ≠ .static →
      (t.bodies x).idle = .time 0) ∧
    (∀ x, x ≠ b → ¬ ((s.bodies b).inSpace = true ∧ s.typ b = .kinematic ∧ new = .dynamic ∧ s.Touching b x ∧ s.typ x ≠ .static) →
      (t.bodies x).idle = (s.bodies x).idle) := by
  simp only [setType, if_neg hne] at e
  obtain ⟨s1, hs1⟩ : ∃ s1, s1 = (s.setBody b fun r => { r with idle := (if new = .static then .infinity else .time 0), infMass := decide (new ≠ .dynamic) }) := ⟨_, rfl⟩
  rw [← hs1] at e
  have b1 : (s1.bodies b).root = none ∧ (s1.bodies b).idle = (if new = .static then .infinity else .time 0) ∧
      (s1.bodies b).infMass = decide (new ≠ .dynamic) ∧ (s1.bodies b).inSpace = (s.bodies b).inSpace ∧ (s1.bodies b).arbs = (s.bodies b).arbs := by
    rw [hs1]; simp [setBody, hr]
  have bx : ∀ x, x ≠ b → s1.bodies x = s.bodies x := fun x hx => by
    rw [hs1]; simp [setBody, Function.update_of_ne hx]
  have r1 : ∀ x, (s1.bodies x).root = (s.bodies x).root := fun x => by
    by_cases hx : x = b
    · rw [hx, b1.1, hr]
    · rw [bx x hx]
  have t1 : s1.typ b = new := by
    simp only [typ, BodyR.type, b1.2.1, b1.2.2.1]
    cases new <;> simp
  have tx : ∀ x, x ≠ b → s1.typ x = s.typ x := fun x hx => by simp only [typ, bx x hx]
  by_cases hin : (s1.bodies b).inSpace = false
  · rw [if_pos hin] at e
    cases e
    rw [b1.2.2.2.1] at hin
    refine ⟨r1, b1.2.1, fun x hx q => ?_, fun x hx _ => by rw [bx x hx]⟩
    rw [hin] at q; simp at q
  · rw [if_neg hin] at e
    by_cases hlk : s1.locked ≠ 0
    · rw [if_pos hlk] at e; cases e
    rw [if_neg hlk] at e
    simp only [Option.bind_eq_bind] at e
    have tail : ∀ u : Sp F, (if s.typ b = .static then
          ((if s.typ b = .static then { u with staticBodies := u.staticBodies.erase b, dynamicBodies := u.dynamicBodies ++ [b] }
            else if new = .static then { u with dynamicBodies := u.dynamicBodies.erase b, staticBodies := u.staticBodies ++ [b] } else u : Sp F).bodies b).shapes.foldlM toDynamic
            (if s.typ b = .static then { u with staticBodies := u.staticBodies.erase b, dynamicBodies := u.dynamicBodies ++ [b] }
              else if new = .static then { u with dynamicBodies := u.dynamicBodies.erase b, staticBodies := u.staticBodies ++ [b] } else u : Sp F)
        else if new = .static then
          ((if s.typ b = .static then { u with staticBodies := u.staticBodies.erase b, dynamicBodies := u.dynamicBodies ++ [b] }
            else if new = .static then { u with dynamicBodies := u.dynamicBodies.erase b, staticBodies := u.staticBodies ++ [b] } else u : Sp F).bodies b).shapes.foldlM toStatic
            (if s.typ b = .static then { u with staticBodies := u.staticBodies.erase b, dynamicBodies := u.dynamicBodies ++ [b] }
              else if new = .static then { u with dynamicBodies := u.dynamicBodies.erase b, staticBodies := u.staticBodies ++ [b] } else u : Sp F)
        else ((if s.typ b = .static then { u with staticBodies := u.staticBodies.erase b, dynamicBodies := u.dynamicBodies ++ [b] }
            else if new = .static then { u with dynamicBodies := u.dynamicBodies.erase b, staticBodies := u.staticBodies ++ [b] } else u : Sp F).bodies b).shapes.foldlM
          (fun s sh => if sh ∈ s.dynamicShapes then some { s with dynamicShapes := s.dynamicShapes.erase sh ++ [sh] } else none)
            (if s.typ b = .static then { u with staticBodies := u.staticBodies.erase b, dynamicBodies := u.dynamicBodies ++ [b] }
              else if new = .static then { u with dynamicBodies := u.dynamicBodies.erase b, staticBodies := u.staticBodies ++ [b] } else u : Sp F)) = some t →
        t.bodies = u.bodies := by
      intro u e
      split_ifs at e
      · refine (foldlM_bodies ?_ _ _ _ e).trans rfl
        intro s x t e
        unfold toDynamic at e
        split at e <;> cases e
        rfl
      · refine (foldlM_bodies ?_ _ _ _ e).trans rfl
        intro s x t e
        unfold toStatic at e
        split at e <;> cases e
        rfl
      · refine (foldlM_bodies ?_ _ _ _ e)
        intro s x t e
        split_ifs at e <;> cases e
        rfl
    by_cases hk : s.typ b = .kinematic ∧ new = .dynamic
    · obtain ⟨hk, hnew⟩ := hk
      have hns : s.typ b ≠ .static := by rw [hk]; simp
      rw [if_pos hns] at e
      obtain ⟨u, e1, e2⟩ := Option.bind_eq_some_iff.1 e
      have et := tail u e2
      have hz : s1.zeroIdle b = s1 := by
        have : (s1.bodies b).idle = .time 0 := by rw [b1.2.1, hnew]; simp
        have h2 : ({ s1.bodies b with idle := .time 0 } : BodyR F) = s1.bodies b := by
          cases hb : s1.bodies b; rw [hb] at this; simp only at this; rw [this]
        simp only [zeroIdle, setBody]
        rw [h2, Function.update_eq_self]
      have hal : s1.arbList b = some (L b) := by
        rw [← h.core.arbList b]
        refine arbList_congr (fun x => by rw [hs1]; exact .refl _) (by rw [hs1]; rfl) (fun x => ?_) b
        by_cases hx : x = b
        · rw [hx]; exact b1.2.2.2.2
        · rw [bx x hx]
      simp only [bodyActivate, t1, hnew, ne_eq, not_true_eq_false, if_false, hz, b1.1, Option.bind_eq_bind, Option.bind_some, hal,
        Option.some.injEq] at e1
      have z := zero_loop b (L b) s1
      have ho : ∀ y, s1.otherBody b y = s.otherBody b y := fun y => by rw [hs1]; rfl
      have e1' : (L b).foldl (fun s x => if s.typ (s.otherBody b x) ≠ .static then s.zeroIdle (s.otherBody b x) else s) s1 = u := e1
      rw [et]
      refine ⟨fun x => ?_, ?_, fun x hx hi _ _ ht hs => ?_, fun x hx hno => ?_⟩
      · rw [← e1', z.root, r1]
      · rw [← e1']
        rcases z.body b with q | ⟨-, q⟩
        · rw [q, b1.2.1]
        · rw [q, hnew]; simp
      · obtain ⟨i1, -⟩ := zero_loop_idle b (L b) s1 x
        rw [← e1']
        obtain ⟨y, hy, q⟩ := (touches_iff h b x).1 ht
        exact i1 ⟨y, hy, by rw [ho]; exact q, by rw [tx x hx]; exact hs⟩
      · obtain ⟨-, i2⟩ := zero_loop_idle b (L b) s1 x
        rw [← e1', ← bx x hx]
        refine i2 fun y hy q => ?_
        by_contra hst
        refine hno ⟨?_, hk, hnew, (touches_iff h b x).2 ⟨y, hy, by rw [← ho]; exact q⟩, by rw [← tx x hx]; exact hst⟩
        rw [← b1.2.2.2.1]; simpa using hin
    · have ha : (if s.typ b ≠ .static then s1.bodyActivate b else some s1) = some s1 := by
        by_cases hst : s.typ b = .static
        · rw [if_neg (by simp [hst])]
        · rw [if_pos hst, bodyActivate, if_pos]
          rw [t1]
          intro hd
          cases hb : s.typ b with
          | static => exact hst hb
          | kinematic => exact hk ⟨hb, hd⟩
          | dynamic => exact hne (by rw [hb, hd])
      have et : t.bodies = s1.bodies := by
        by_cases hst : s.typ b = .static
        · rw [if_neg (by simp [hst])] at e
          exact tail s1 e
        · rw [if_pos hst] at e ha
          rw [ha] at e
          exact tail s1 e
      rw [et]
      exact ⟨r1, b1.2.1, fun x hx _ q1 q2 => absurd ⟨q1, q2⟩ hk, fun x hx _ => by rw [bx x hx]⟩

end Sp
end CP
