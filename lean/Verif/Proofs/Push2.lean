import Verif.Proofs.Push
import Verif.Props.Correct

/-! # Pushing apart: the contact solved last; contacts that are alone; steps without overlap; what the push does not touch -/

namespace CP
open GoFloat

theorem forall2_snoc {α β : Type} {R : α → β → Prop} {d : β} : ∀ {ds : List β} {l : List α}, List.Forall₂ R l (ds ++ [d]) →
    ∃ cs c, l = cs ++ [c] ∧ R c d
  | [], l, h => by
    cases h with
    | cons hr ht => cases ht; exact ⟨[], _, rfl, hr⟩
  | e :: ds, l, h => by
    cases h with
    | cons hr ht =>
      obtain ⟨cs, c, rfl, k⟩ := forall2_snoc ht
      exact ⟨_ :: cs, c, rfl, k⟩

/-- What the last call for the last contact of the arbiter with the last word worked on and left behind. -/
theorem last_contact (m : Motion ℝ) (t : Tick ℝ) (i : Nat) (cs : List (Contact ℝ)) (c : Contact ℝ) (hdt : t.dt ≠ 0) (hl : t.LastPush m i)
    (hc : (t.contact i).contacts = cs ++ [c]) :
    ∃ (h : Bodies ℝ) (arb : Arb ℝ) (c' : Contact ℝ), (∀ x, Frozen (m.seen t x) (h x)) ∧ Contact.Ready c' c (m.seen t) (t.contact i) t.dt t.slop (1 - t.collisionBias ^ t.dt) ∧
      arb.a = (t.contact i).a ∧ arb.b = (t.contact i).b ∧ arb.n = (t.contact i).n ∧ arb.surface_vr = (t.contact i).surface_vr ∧
      ∀ x, x = (t.contact i).a ∨ x = (t.contact i).b →
        ((m.tick t).bodies x).v_bias = ((arb.applyContact h c').1 x).v_bias ∧ ((m.tick t).bodies x).w_bias = ((arb.applyContact h c').1 x).w_bias ∧
        (Immovable (m.bodies x) ∨ t.Unjoined m x → (m.tick t).bodies x = (arb.applyContact h c').1 x) := by
  obtain ⟨h, arb, hf, hcore, hx⟩ := last_push m t i hdt hl
  obtain ⟨e1, e2, e3, -, -, e4, e5⟩ := ready_of_core _ _ _ _ _ _ hcore
  rw [hc] at e5
  obtain ⟨cs', c', hcs, hr⟩ := forall2_snoc e5
  have ha : (arb.applyImpulse h).1 = (arb.applyContact (arb.applyLoop h cs').1 c').1 := by
    rw [← applyLoop_last, ← hcs]
    rfl
  rw [ha] at hx
  exact ⟨_, arb, c', fun x => (hf x).trans (applyLoop_frozen arb x cs' h), hr, e1, e2, e3, e4, hx⟩

theorem pushVel_congr {arb arb' : Arb ℝ} {c : Contact ℝ} {h h' : Bodies ℝ} (ea : arb'.a = arb.a) (eb : arb'.b = arb.b) (en : arb'.n = arb.n)
    (hx : ∀ x, x = arb.a ∨ x = arb.b → (h x).v_bias = (h' x).v_bias ∧ (h x).w_bias = (h' x).w_bias) : arb.pushVel c h = arb'.pushVel c h' := by
  simp only [Arb.pushVel, ea, eb, en, (hx _ (Or.inl rfl)).1, (hx _ (Or.inl rfl)).2, (hx _ (Or.inr rfl)).1, (hx _ (Or.inr rfl)).2]

theorem push_least (m : Motion ℝ) (t : Tick ℝ) (i : Nat) (cs : List (Contact ℝ)) (c : Contact ℝ) (hdt : t.dt ≠ 0) (hl : t.LastPush m i)
    (hc : (t.contact i).contacts = cs ++ [c]) (hab : (t.contact i).a ≠ (t.contact i).b) (hn : (t.contact i).n.dot (t.contact i).n = 1)
    (hs : Solvable m.bodies (t.contact i).a (t.contact i).b) :
    (1 - t.collisionBias ^ t.dt) * max 0 ((t.contact i).overlap c (m.seen t) - t.slop) / t.dt ≤ (t.contact i).pushVel c (m.tick t).bodies := by
  obtain ⟨h, arb, c', hf, hr, e1, e2, e3, e4, hx⟩ := last_contact m t i cs c hdt hl hc
  obtain ⟨p1, p2⟩ := contact_push arb h (m.seen t) c' c (by rw [e1, e2]; exact hab) (by rw [e3]; exact hn) hf hr.r1 hr.r2
  have hk := (solvable_seen hs (t := t)).kScalar_pos c.r1 c.r2 (t.contact i).n
  rw [pushVel_congr e1 e2 e3 (fun x h => ⟨(hx x h).1, (hx x h).2.1⟩), p1, p2, ← hr.bias, hr.nMass, e1, e2, e3]
  generalize kScalar (m.seen t) (t.contact i).a (t.contact i).b c.r1 c.r2 (t.contact i).n = K at hk
  have := le_max_left (c'.jBias + (c'.bias - arb.pushVel c h) * (1 / K)) 0
  have h2 := mul_le_mul_of_nonneg_right this hk.le
  have h3 := solve_div (c'.bias - arb.pushVel c h) K hk.ne'
  nlinarith

theorem part_least (m : Motion ℝ) (t : Tick ℝ) (i : Nat) (cs : List (Contact ℝ)) (c : Contact ℝ) (hdt : t.dt ≠ 0) (hl : t.LastPush m i)
    (hc : (t.contact i).contacts = cs ++ [c]) (hab : (t.contact i).a ≠ (t.contact i).b) (hn : (t.contact i).n.dot (t.contact i).n = 1)
    (hs : Solvable m.bodies (t.contact i).a (t.contact i).b) (hsv : (t.contact i).surface_vr.dot (t.contact i).n = 0)
    (hr1 : c.r1.cross (t.contact i).n = 0) (hr2 : c.r2.cross (t.contact i).n = 0)
    (ua : Immovable (m.bodies (t.contact i).a) ∨ t.Unjoined m (t.contact i).a) (ub : Immovable (m.bodies (t.contact i).b) ∨ t.Unjoined m (t.contact i).b) :
    -((t.contact i).e * (t.contact i).partVel c (m.seen t)) ≤ (t.contact i).partVel c (m.tick t).bodies := by
  obtain ⟨h, arb, c', hf, hr, e1, e2, e3, e4, hx⟩ := last_contact m t i cs c hdt hl hc
  obtain ⟨p1, p2⟩ := contact_part arb h (m.seen t) c' c (by rw [e1, e2]; exact hab) (by rw [e3]; exact hn) (by rw [e3, e4]; exact hsv)
    (by rw [e3]; exact hr1) (by rw [e3]; exact hr2) hf hr.r1 hr.r2
  have hk := (solvable_seen hs (t := t)).kScalar_pos c.r1 c.r2 (t.contact i).n
  have e : (t.contact i).partVel c (m.tick t).bodies = arb.partVel c (arb.applyContact h c').1 := by
    simp only [Arb.partVel, e1, e2, e3, (hx _ (Or.inl rfl)).2.2 ua, (hx _ (Or.inr rfl)).2.2 ub]
  have hb : (t.contact i).e * (t.contact i).partVel c (m.seen t) = c'.bounce := by rw [hr.bounce, mul_comm]
  rw [e, p1, p2, hr.nMass, e1, e2, e3, hb]
  generalize kScalar (m.seen t) (t.contact i).a (t.contact i).b c.r1 c.r2 (t.contact i).n = K at hk
  have := le_max_left (c'.jnAcc + -(c'.bounce + arb.partVel c h) * (1 / K)) 0
  have h2 := mul_le_mul_of_nonneg_right this hk.le
  have h3 := solve_div (-(c'.bounce + arb.partVel c h)) K hk.ne'
  nlinarith

end CP
