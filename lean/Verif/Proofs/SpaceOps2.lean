import Verif.Proofs.SpaceOps

/-! # Adding shapes, changing types -/

namespace CP
variable {F : Type} [GoFloat F]
namespace Sp

theorem owner_congr {s t : Sp F} (ht : ∀ b, t.typ b = s.typ b) (ha : t.arbs = s.arbs) (x : Nat) :
    t.owner x = s.owner x := by simp only [owner, ht, ha]

/-- `AddShape` wakes the body of the shape first. -/
theorem addShape_inv {L : Nat → List Nat} {rest : List Nat} {s : Sp F} (h : Inv L rest s) (hl : s.locked = 0)
    {sh : Nat} (hs : (s.shapes sh).inSpace = false) :
    ∃ t u, s.addShape sh = some t ∧ Inv L rest t ∧ Woke s u ∧ t = { u with
      bodies := Function.update u.bodies (s.shapes sh).body { u.bodies (s.shapes sh).body with
        shapes := (u.bodies (s.shapes sh).body).shapes ++ [sh] }
      shapes := Function.update u.shapes sh { u.shapes sh with inSpace := true }
      staticShapes := (if s.typ (s.shapes sh).body = .static then u.staticShapes ++ [sh] else u.staticShapes)
      dynamicShapes := (if s.typ (s.shapes sh).body = .static then u.dynamicShapes else u.dynamicShapes ++ [sh]) } := by
  have hw : ∃ u, (if s.typ (s.shapes sh).body = .static then some s else s.bodyActivate (s.shapes sh).body) = some u ∧
      Inv L rest u ∧ Woke s u ∧ (s.typ (s.shapes sh).body ≠ .static → (u.bodies (s.shapes sh).body).root = none) := by
    split_ifs with e
    · exact ⟨s, rfl, h, .refl s, fun h => absurd e h⟩
    · obtain ⟨u, e, hu, w, hr, -⟩ := bodyActivate_inv h (s.shapes sh).body
      exact ⟨u, e, hu, w, fun _ => hr⟩
  obtain ⟨u, e, hu, w, hr⟩ := hw
  have hlu : u.locked = 0 := by rw [w.locked]; exact hl
  generalize hbd : (s.shapes sh).body = b at *
  have hA : s.typ b ≠ .static → ¬ u.off b := fun hst => by rw [hu.off_iff hlu]; simp [hr hst]
  have ht : s.addShape sh = some { u with
      bodies := Function.update u.bodies b { u.bodies b with shapes := (u.bodies b).shapes ++ [sh] }
      shapes := Function.update u.shapes sh { u.shapes sh with inSpace := true }
      staticShapes := (if s.typ b = .static then u.staticShapes ++ [sh] else u.staticShapes)
      dynamicShapes := (if s.typ b = .static then u.dynamicShapes else u.dynamicShapes ++ [sh]) } := by
    unfold addShape
    rw [if_neg (by simp [hs, hl])]
    simp only [hbd, Option.bind_eq_bind]
    by_cases e0 : s.typ b = .static
    · rw [if_pos e0] at e
      simp only [if_pos e0]
      rw [e]; rfl
    · rw [if_neg e0] at e
      simp only [if_neg e0]
      rw [e]; rfl
  refine ⟨_, u, ht, ?_, w, rfl⟩
  have hsu : (u.shapes sh).inSpace = false := by rw [w.shapes]; exact hs
  have hbu : (u.shapes sh).body = b := by rw [w.shapes]; exact hbd
  have hst : u.typ b = s.typ b := w.typ b
  -- the bodies only differ in their shape lists
  generalize hB : Function.update u.bodies b { u.bodies b with shapes := (u.bodies b).shapes ++ [sh] } = B
  generalize hS : Function.update u.shapes sh { u.shapes sh with inSpace := true } = S
  have hBx : ∀ x, B x = { u.bodies x with shapes := (B x).shapes } := by
    intro x; subst hB
    by_cases hx : x = b
    · subst hx; simp
    · simp [hx]
  have hBs : ∀ x, (B x).shapes = if x = b then (u.bodies x).shapes ++ [sh] else (u.bodies x).shapes := by
    intro x; subst hB
    by_cases hx : x = b
    · subst hx; simp
    · simp [hx]
  have hSx : ∀ y, (S y).body = (u.shapes y).body := by
    intro y; subst hS
    by_cases hy : y = sh
    · subst hy; simp
    · simp [hy]
  have hSi : ∀ y, (S y).inSpace = true ↔ y = sh ∨ (u.shapes y).inSpace = true := by
    intro y; subst hS
    by_cases hy : y = sh
    · subst hy; simp
    · simp [hy]
  have hSo : ∀ y, (u.shapes y).inSpace = true → S y = u.shapes y := by
    intro y hy; subst hS
    have : y ≠ sh := by rintro rfl; rw [hsu] at hy; simp at hy
    simp [this]
  clear hB hS
  have hty : ∀ x, (B x).type = u.typ x := by intro x; rw [hBx]; rfl
  have hroot : ∀ x, (B x).root = (u.bodies x).root := by intro x; rw [hBx]
  have hnext : ∀ x, (B x).next = (u.bodies x).next := by intro x; rw [hBx]
  have hidle : ∀ x, (B x).idle = (u.bodies x).idle := by intro x; rw [hBx]
  have hin : ∀ x, (B x).inSpace = (u.bodies x).inSpace := by intro x; rw [hBx]
  have hcons : ∀ x, (B x).cons = (u.bodies x).cons := by intro x; rw [hBx]
  have harb : ∀ x, (B x).arbs = (u.bodies x).arbs := by intro x; rw [hBx]
  have hc := hu.full.core
  have hsh_not : ∀ b', sh ∉ (u.bodies b').shapes := fun b' hm => by
    have := ((hc.shape.memList b' sh).1 hm).1
    rw [hsu] at this; simp at this
  have hsS : sh ∉ u.staticShapes := fun hm => by
    have := ((hc.shape.memStat sh).1 hm).1
    rw [hsu] at this; simp at this
  have hsD : sh ∉ u.dynamicShapes := fun hm => by
    have := ((hc.shape.memDyn sh).1 hm).1
    rw [hsu] at this; simp at this
  refine ⟨Full.of (A := u.off) ⟨?_, ?_, ?_, ?_, ?_⟩ ?_ ?_, ?_, ?_⟩
  · constructor
    · exact hc.body.dynNodup
    · exact hc.body.statNodup
    · intro x; simp only [typ]; rw [hty, hin]; exact hc.body.memDyn x
    · intro x; simp only [typ]; rw [hty, hin]; exact hc.body.memStat x
    · intro x; simp only [typ]; rw [hty, hin]; exact hc.body.off x
    · intro x; simp only; rw [hin]; exact hc.body.bound x
  · constructor
    · intro x; simp only; rw [hBs]
      split_ifs
      · exact nodup_concat (hc.shape.listNodup x) (hsh_not x)
      · exact hc.shape.listNodup x
    · intro x y; simp only; rw [hBs, hSi, hSx]
      have := hc.shape.memList x y
      split_ifs with e
      · rw [List.mem_append, List.mem_singleton, this]
        constructor
        · rintro (⟨e1, e2⟩ | rfl)
          · exact ⟨Or.inr e1, e2⟩
          · exact ⟨Or.inl rfl, by rw [hbu, e]⟩
        · rintro ⟨rfl | e1, e2⟩
          · exact Or.inr rfl
          · exact Or.inl ⟨e1, e2⟩
      · rw [this]
        constructor
        · rintro ⟨e1, e2⟩; exact ⟨Or.inr e1, e2⟩
        · rintro ⟨rfl | e1, e2⟩
          · rw [hbu] at e2; exact absurd e2.symm e
          · exact ⟨e1, e2⟩
    · dsimp only; split_ifs
      · exact nodup_concat hc.shape.statNodup hsS
      · exact hc.shape.statNodup
    · dsimp only; split_ifs
      · exact hc.shape.dynNodup
      · exact nodup_concat hc.shape.dynNodup hsD
    · intro y
      show y ∈ (if s.typ b = .static then u.staticShapes ++ [sh] else u.staticShapes) ↔
        (S y).inSpace = true ∧ ((B (S y).body).type = .static ∨ u.off (S y).body)
      rw [hSi, hSx, hty]
      have hy := hc.shape.memStat y
      by_cases e : y = sh
      · subst e
        rw [hbu, hst]
        by_cases e2 : s.typ b = .static
        · simp [e2]
        · simp [e2, hA e2, hsS]
      · by_cases e2 : s.typ b = .static
        · simp [e2, e, hy]
        · simp [e2, e, hy]
    · intro y
      show y ∈ (if s.typ b = .static then u.dynamicShapes else u.dynamicShapes ++ [sh]) ↔
        (S y).inSpace = true ∧ ¬ ((B (S y).body).type = .static ∨ u.off (S y).body)
      rw [hSi, hSx, hty]
      have hy := hc.shape.memDyn y
      by_cases e : y = sh
      · subst e
        rw [hbu, hst]
        by_cases e2 : s.typ b = .static
        · simp [e2, hsD]
        · simp [e2, hA e2]
      · by_cases e2 : s.typ b = .static
        · simp [e2, e, hy]
        · simp [e2, e, hy]
  · exact hc.con.congr hty hcons rfl rfl rfl
  · exact hc.thread.congr harb rfl
  · refine hc.arb.congr (fun x _ => ?_) rfl (fun x hx => ?_) rfl rfl rfl rfl rfl rfl
    · refine iff_of_eq (congrArg u.off ?_)
      refine owner_congr ?_ ?_ x
      · exact hty
      · rfl
    · have := hc.arb.live x hx
      exact ⟨hSo _ this.2.2.1, hSo _ this.2.2.2.1⟩
  · exact hu.full.sleep.congr hroot hnext rfl rfl rfl
  · exact hu.full.quiet.congr hroot rfl
  · exact hu.closed.congr (fun x => by simp only [typ]; rw [hty]; exact id) hroot rfl rfl
  · exact hu.num.congr hty hidle rfl rfl rfl (by simp only; rw [hin]; exact hu.num.sb.1)

/-- The type of one awake body without sleeping neighbours changes. -/
theorem Inv.retype {L : Nat → List Nat} {rest : List Nat} {s : Sp F} (h : Inv L rest s) (hl : s.locked = 0)
    {b : Nat} (hroot : (s.bodies b).root = none) (hsb : b ≠ s.staticBody)
    (harb : ∀ x, InL L s x → (s.arbs x).bodyA = b ∨ (s.arbs x).bodyB = b →
      (s.bodies (s.arbs x).bodyA).root = none ∧ (s.bodies (s.arbs x).bodyB).root = none)
    (hcon : ∀ c, (s.cons c).inSpace = true → (s.cons c).a = b ∨ (s.cons c).b = b →
      (s.bodies (s.cons c).a).root = none ∧ (s.bodies (s.cons c).b).root = none)
    (i : Idle F) (m : Bool) (D S DS SS : List Nat)
    (hk : ({ s.bodies b with idle := i, infMass := m } : BodyR F).type = .kinematic → i = .time 0)
    (t : Sp F) (ht : t = { s with
      bodies := Function.update s.bodies b { s.bodies b with idle := i, infMass := m }
      dynamicBodies := D, staticBodies := S, dynamicShapes := DS, staticShapes := SS })
    (hb : BodyInv s.off t) (hs : ShapeInv s.off t) : Inv L rest t := by
  have hoffb : ∀ x, s.off x ↔ (s.bodies x).root ≠ none := h.off_iff hl
  have hBx : ∀ x, t.bodies x = { s.bodies x with idle := (t.bodies x).idle, infMass := (t.bodies x).infMass } := by
    intro x; subst ht
    by_cases hx : x = b
    · subst hx; simp
    · simp [hx]
  have hne : ∀ x, x ≠ b → t.bodies x = s.bodies x := by
    intro x hx; subst ht; simp [hx]
  have htb : t.bodies b = { s.bodies b with idle := i, infMass := m } := by subst ht; simp
  have hr : ∀ x, (t.bodies x).root = (s.bodies x).root := by intro x; rw [hBx]
  have hnext : ∀ x, (t.bodies x).next = (s.bodies x).next := by intro x; rw [hBx]
  have hcons : ∀ x, (t.bodies x).cons = (s.bodies x).cons := by intro x; rw [hBx]
  have harbs : ∀ x, (t.bodies x).arbs = (s.bodies x).arbs := by intro x; rw [hBx]
  have hin : ∀ x, (t.bodies x).inSpace = (s.bodies x).inSpace := by intro x; rw [hBx]
  have hty : ∀ x, x ≠ b → t.typ x = s.typ x := by intro x hx; simp only [typ, hne x hx]
  have ea : t.arbs = s.arbs := by rw [ht]
  have ec : t.cons = s.cons := by rw [ht]
  have hc := h.full.core
  have hown : ∀ x, InL L s x → (s.off (t.owner x) ↔ s.off (s.owner x)) := by
    intro x hx
    by_cases e : (s.arbs x).bodyA = b ∨ (s.arbs x).bodyB = b
    · have := harb x hx e
      rw [hoffb, hoffb]
      have o1 := t.owner_ends x
      have o2 := s.owner_ends x
      rw [ea] at o1
      have n1 : (s.bodies (t.owner x)).root = none := by
        rcases o1 with e | e <;> rw [← e]
        · exact this.1
        · exact this.2
      have n2 : (s.bodies (s.owner x)).root = none := by
        rcases o2 with e | e <;> rw [← e]
        · exact this.1
        · exact this.2
      simp [n1, n2]
    · push Not at e
      simp only [owner, ea, hty _ e.1]
  have hcown : ∀ c, (s.cons c).inSpace = true → (s.off (t.conOwner c) ↔ s.off (s.conOwner c)) := by
    intro c hcs
    by_cases e : (s.cons c).a = b ∨ (s.cons c).b = b
    · have := hcon c hcs e
      rw [hoffb, hoffb]
      have o1 := t.conOwner_ends c
      have o2 := s.conOwner_ends c
      rw [ec] at o1
      have n1 : (s.bodies (t.conOwner c)).root = none := by
        rcases o1 with e | e <;> rw [← e]
        · exact this.1
        · exact this.2
      have n2 : (s.bodies (s.conOwner c)).root = none := by
        rcases o2 with e | e <;> rw [← e]
        · exact this.1
        · exact this.2
      simp [n1, n2]
    · push Not at e
      simp only [conOwner, ec, hty _ e.1]
  have hi : ∀ x, InL L t x ↔ InL L s x := fun x => by simp only [InL, ea]
  have hp : ∀ a b x, t.samePair a b x = s.samePair a b x := fun a b x => by simp only [samePair, ea]
  have e1 : t.arbiters = s.arbiters := by rw [ht]
  have e2 : t.cached = s.cached := by rw [ht]
  have e3 : t.arbBound = s.arbBound := by rw [ht]
  have e4 : t.pool = s.pool := by rw [ht]
  have e5 : t.stamp = s.stamp := by rw [ht]
  have e6 : t.head = s.head := by rw [ht]
  have e7 : t.shapes = s.shapes := by rw [ht]
  have e8 : t.sleeping = s.sleeping := by rw [ht]
  have e9 : t.constraints = s.constraints := by rw [ht]
  have e10 : t.nCons = s.nCons := by rw [ht]
  have e11 : t.threshold = s.threshold := by rw [ht]
  have e12 : t.staticBody = s.staticBody := by rw [ht]
  have hbound : ∀ p q, (q = b → (s.bodies p).root = none) → Bound s p q → Bound t p q := by
    intro p q hq hbd
    simp only [Bound, hr] at hbd ⊢
    intro e
    rcases hbd e with e' | e'
    · left
      rw [hty]
      · exact e'
      · intro hqb; exact e (hq hqb)
    · exact Or.inr e'
  refine ⟨Full.of (A := s.off) ⟨hb, hs, ?_, ?_, ?_⟩ ?_ ?_, ?_, ?_⟩
  · constructor
    · intro c; rw [ec]; exact hc.con.ne c
    · intro c; rw [ec, e10]; exact hc.con.bound c
    · intro x
      have en : t.conNext x = s.conNext x := by funext c; simp only [conNext, ec]
      rw [hcons, en, ec]; exact hc.con.list x
    · rw [e9]; exact hc.con.nodup
    · intro c; rw [e9, ec, hc.con.mem c]
      constructor
      · rintro ⟨a1, a2⟩; exact ⟨a1, by rw [hcown c a1]; exact a2⟩
      · rintro ⟨a1, a2⟩; exact ⟨a1, by rw [← hcown c a1]; exact a2⟩
  · exact hc.thread.congr harbs ea
  · constructor
    · intro x; rw [e1, hi, hc.arb.mem]
      constructor
      · rintro (⟨a1, a2⟩ | e)
        · exact Or.inl ⟨a1, by rw [hown x a1]; exact a2⟩
        · exact Or.inr e
      · rintro (⟨a1, a2⟩ | e)
        · exact Or.inl ⟨a1, by rw [← hown x a1]; exact a2⟩
        · exact Or.inr e
    · rw [e1]; exact hc.arb.nodup
    · exact hc.arb.restNodup
    · intro x hx; rw [hi, e2]; exact hc.arb.rest x hx
    · intro x hx; rw [hi] at hx; rw [e2, hown x hx]; exact hc.arb.cachedIff x hx
    · rw [e2]; exact hc.arb.cachedNodup
    · intro x y; rw [e2, hi, hi, hp, ea]; exact hc.arb.uniq x y
    · intro x hx
      rw [e2, hi] at hx
      rw [ea, e7, e3, e4]; exact hc.arb.live x hx
    · rw [e4]; exact hc.arb.poolNodup
    · rw [e4, e3]; exact hc.arb.poolBound
    · intro x; rw [e1, ea, e5]; exact hc.arb.stamp x
    · intro x; rw [hi, e6]; exact hc.arb.head x
    · intro x; rw [e3, e4, e2, hi]; exact hc.arb.noLeak x
  · exact h.full.sleep.congr hr hnext e8 (by rw [ht]) (by rw [ht])
  · exact h.full.quiet.congr hr e8
  · constructor
    · intro x hx
      rw [hi] at hx
      rw [ea]
      have := h.closed.arb x hx
      exact ⟨hbound _ _ (fun e => (harb x hx (Or.inr e)).1) this.1,
        hbound _ _ (fun e => (harb x hx (Or.inl e)).2) this.2⟩
    · intro c hcs
      rw [ec] at hcs ⊢
      have := h.closed.con c hcs
      exact ⟨hbound _ _ (fun e => (hcon c hcs (Or.inr e)).1) this.1,
        hbound _ _ (fun e => (hcon c hcs (Or.inl e)).2) this.2⟩
  · constructor
    · intro x hx
      by_cases e : x = b
      · subst e
        rw [htb]
        simp only [typ, htb] at hx
        exact hk hx
      · rw [hty x e] at hx
        rw [hne x e]; exact h.num.kin x hx
    · rw [e11]; exact h.num.pos
    · rw [e11, e8]; exact h.num.inf
    · rw [e12, hin, hty _ hsb.symm]; exact h.num.sb

end Sp
end CP
