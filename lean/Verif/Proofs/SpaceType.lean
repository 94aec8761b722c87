import Verif.Proofs.SpaceOps2

/-! # `Body.SetType` -/

namespace CP
variable {F : Type} [GoFloat F]
namespace Sp

/-- What `SetType` leaves alone. -/
structure TypeFrame (s t : Sp F) (b : Nat) (new : BType) : Prop where
  typ : ∀ x, t.typ x = if x = b then new else s.typ x
  inSpace : ∀ x, (t.bodies x).inSpace = (s.bodies x).inSpace
  root : ∀ x, (t.bodies x).root = (s.bodies x).root
  shapes : t.shapes = s.shapes
  cons : t.cons = s.cons
  bcons : ∀ x, (t.bodies x).cons = (s.bodies x).cons
  locked : t.locked = s.locked
  nBodies : t.nBodies = s.nBodies
  nCons : t.nCons = s.nCons
  staticBody : t.staticBody = s.staticBody
  threshold : t.threshold = s.threshold
  trace : t.trace = s.trace
  stamp : t.stamp = s.stamp
  kept : ArbsKept s t

theorem Inv.permDyn {L : Nat → List Nat} {rest : List Nat} {s : Sp F} (h : Inv L rest s) (D : List Nat) (hD : D.Nodup)
    (hm : ∀ y, y ∈ D ↔ y ∈ s.dynamicShapes) : Inv L rest { s with dynamicShapes := D } := by
  have hc := h.full.core
  refine ⟨Full.of (A := s.off) ⟨?_, ?_, ?_, ?_, ?_⟩ ?_ ?_, ?_, ?_⟩
  · exact ⟨hc.body.dynNodup, hc.body.statNodup, hc.body.memDyn, hc.body.memStat, hc.body.off, hc.body.bound⟩
  · exact ⟨hc.shape.listNodup, hc.shape.memList, hc.shape.statNodup, hD, hc.shape.memStat,
      fun sh => (hm sh).trans (hc.shape.memDyn sh)⟩
  · exact hc.con.congr (fun _ => rfl) (fun _ => rfl) rfl rfl rfl
  · exact hc.thread.congr (fun _ => rfl) rfl
  · exact hc.arb.congr (fun _ _ => .rfl) rfl (fun _ _ => ⟨rfl, rfl⟩) rfl rfl rfl rfl rfl rfl
  · exact h.full.sleep.congr (fun _ => rfl) (fun _ => rfl) rfl rfl rfl
  · exact h.full.quiet.congr (fun _ => rfl) rfl
  · exact h.closed.congr (fun _ => id) (fun _ => rfl) rfl rfl
  · exact h.num.congr (fun _ => rfl) (fun _ => rfl) rfl rfl rfl h.num.sb.1

/-- Removing and inserting shapes in the same index. -/
theorem reindex_loop : ∀ (l : List Nat) (s : Sp F), s.dynamicShapes.Nodup → (∀ sh ∈ l, sh ∈ s.dynamicShapes) →
    ∃ D, l.foldlM (fun (s : Sp F) sh => if sh ∈ s.dynamicShapes then
        some { s with dynamicShapes := s.dynamicShapes.erase sh ++ [sh] } else none) s =
      some { s with dynamicShapes := D } ∧ D.Nodup ∧ ∀ y, y ∈ D ↔ y ∈ s.dynamicShapes
  | [], s, h, _ => ⟨s.dynamicShapes, rfl, h, fun _ => .rfl⟩
  | x :: l, s, h, hm => by
    have hx := hm x (by simp)
    have hmem : ∀ y, y ∈ s.dynamicShapes.erase x ++ [x] ↔ y ∈ s.dynamicShapes := by
      intro y
      rw [List.mem_append, h.mem_erase_iff, List.mem_singleton]
      constructor
      · rintro (e | rfl)
        · exact e.2
        · exact hx
      · intro hy
        by_cases e : y = x
        · exact Or.inr e
        · exact Or.inl ⟨e, hy⟩
    obtain ⟨D, e, hD, hDm⟩ := reindex_loop l ({ s with dynamicShapes := s.dynamicShapes.erase x ++ [x] } : Sp F)
      (nodup_concat (h.erase x) (by rw [h.mem_erase_iff]; simp)) (fun sh hsh => (hmem sh).2 (hm sh (by simp [hsh])))
    refine ⟨D, ?_, hD, fun y => (hDm y).trans (hmem y)⟩
    simp only [List.foldlM_cons, Option.bind_eq_bind, if_pos hx, Option.bind_some]
    exact e

set_option maxHeartbeats 1000000 in
/-- `SetType` of an awake body; a static body must not have sleeping neighbours. -/
theorem setType_inv {L : Nat → List Nat} {rest : List Nat} {s : Sp F} (h : Inv L rest s) (hl : s.locked = 0)
    {b : Nat} (hroot : (s.bodies b).root = none) (hsb : b ≠ s.staticBody)
    (hstat : s.typ b = .static → (∀ x ∈ L b, (s.bodies (s.otherBody b x)).root = none) ∧
      ∀ c, (s.cons c).inSpace = true → (s.cons c).a = b ∨ (s.cons c).b = b →
        (s.bodies (s.otherCon b c)).root = none)
    (hsh : (s.bodies b).inSpace = false → (s.bodies b).shapes = []) (new : BType) :
    ∃ t, s.setType b new = some t ∧ Inv L rest t ∧ TypeFrame s t b new := by
  by_cases hold : s.typ b = new
  · refine ⟨s, by simp only [setType, if_pos hold], h, ⟨fun x => ?_, fun _ => rfl, fun _ => rfl, rfl, rfl, fun _ => rfl, rfl, rfl, rfl,
      rfl, rfl, rfl, rfl, ⟨fun _ => .refl _, rfl, rfl, fun _ => .inl rfl⟩⟩⟩
    split_ifs with e
    · rw [e]; exact hold
    · rfl
  have hc := h.full.core
  have hoffb : ∀ x, s.off x ↔ (s.bodies x).root ≠ none := h.off_iff hl
  have hA : ¬ s.off b := by rw [hoffb]; simp [hroot]
  -- neighbours are awake
  have harb : ∀ x, InL L s x → (s.arbs x).bodyA = b ∨ (s.arbs x).bodyB = b →
      (s.bodies (s.arbs x).bodyA).root = none ∧ (s.bodies (s.arbs x).bodyB).root = none := by
    intro x hx he
    have hcl := h.closed.arb x hx
    have hne := (hc.arb.live x (Or.inr hx)).2.2.2.2.1
    by_cases hs : s.typ b = .static
    · have := (hstat hs).1 x (by
        rcases he with e | e
        · rw [← e]; exact hx
        · rw [← e]; exact (hc.thread.both x).1 hx)
      simp only [otherBody] at this
      rcases he with e | e
      · rw [if_pos e] at this; rw [e]; exact ⟨hroot, this⟩
      · rw [if_neg (by rw [← e]; exact hne)] at this
        rw [e]; exact ⟨this, hroot⟩
    · rcases he with e | e
      · rw [e]
        refine ⟨hroot, ?_⟩
        by_contra hq
        rcases hcl.2 hq with e' | e'
        · rw [e] at e'; exact hs e'
        · rw [e, hroot] at e'; exact hq e'.symm
      · rw [e]
        refine ⟨?_, hroot⟩
        by_contra hq
        rcases hcl.1 hq with e' | e'
        · rw [e] at e'; exact hs e'
        · rw [e, hroot] at e'; exact hq e'.symm
  have hcon : ∀ c, (s.cons c).inSpace = true → (s.cons c).a = b ∨ (s.cons c).b = b →
      (s.bodies (s.cons c).a).root = none ∧ (s.bodies (s.cons c).b).root = none := by
    intro x hx he
    have hcl := h.closed.con x hx
    have hne := hc.con.ne x hx
    by_cases hs : s.typ b = .static
    · have := (hstat hs).2 x hx he
      simp only [otherCon] at this
      rcases he with e | e
      · rw [if_pos e.symm] at this; rw [e]; exact ⟨hroot, this⟩
      · rw [if_neg (by rw [← e]; exact hne.symm)] at this
        rw [e]; exact ⟨this, hroot⟩
    · rcases he with e | e
      · rw [e]
        refine ⟨hroot, ?_⟩
        by_contra hq
        rcases hcl.2 hq with e' | e'
        · rw [e] at e'; exact hs e'
        · rw [e, hroot] at e'; exact hq e'.symm
      · rw [e]
        refine ⟨?_, hroot⟩
        by_contra hq
        rcases hcl.1 hq with e' | e'
        · rw [e] at e'; exact hs e'
        · rw [e, hroot] at e'; exact hq e'.symm
  -- the new body
  obtain ⟨i, hi⟩ : ∃ i : Idle F, i = if new = .static then .infinity else .time 0 := ⟨_, rfl⟩
  obtain ⟨m, hm⟩ : ∃ m : Bool, m = decide (new ≠ .dynamic) := ⟨_, rfl⟩
  have hnew : ({ s.bodies b with idle := i, infMass := m } : BodyR F).type = new := by
    subst hi hm
    cases new <;> simp [BodyR.type]
  have hk : ({ s.bodies b with idle := i, infMass := m } : BodyR F).type = .kinematic → i = .time 0 := by
    rw [hnew]; rintro rfl; simp [hi]
  obtain ⟨B, hB⟩ : ∃ B, B = Function.update s.bodies b { s.bodies b with idle := i, infMass := m } := ⟨_, rfl⟩
  have hBt : ∀ x, (B x).type = if x = b then new else s.typ x := by
    intro x; subst hB
    by_cases hx : x = b
    · subst hx; simp [hnew]
    · simp [hx, typ]
  have hBx : ∀ x, B x = { s.bodies x with idle := (B x).idle, infMass := (B x).infMass } := by
    intro x; subst hB
    by_cases hx : x = b
    · subst hx; simp
    · simp [hx]
  have hBin : ∀ x, (B x).inSpace = (s.bodies x).inSpace := by intro x; rw [hBx]
  have hBroot : ∀ x, (B x).root = (s.bodies x).root := by intro x; rw [hBx]
  have hBcons : ∀ x, (B x).cons = (s.bodies x).cons := by intro x; rw [hBx]
  have hBsh : ∀ x, (B x).shapes = (s.bodies x).shapes := by intro x; rw [hBx]
  have frame : ∀ D S DS SS, TypeFrame s { s with
      bodies := B, dynamicBodies := D, staticBodies := S, dynamicShapes := DS, staticShapes := SS } b new := by
    intro D S DS SS
    exact ⟨hBt, hBin, hBroot, rfl, rfl, hBcons, rfl, rfl, rfl, rfl, rfl, rfl, rfl, ⟨fun _ => .refl _, rfl, rfl, fun _ => .inl rfl⟩⟩
  have retype := fun D S DS SS => h.retype hl hroot hsb harb hcon i m D S DS SS hk { s with
      bodies := B, dynamicBodies := D, staticBodies := S, dynamicShapes := DS, staticShapes := SS } (by rw [hB])
  have hbi := hc.body
  have hsi := hc.shape
  have hs1 : (s.setBody b fun r => { r with
      idle := (if new = .static then .infinity else .time 0)
      infMass := decide (new ≠ .dynamic) }) = { s with bodies := B } := by
    rw [hB, hi, hm]; rfl
  simp only [setType]
  rw [if_neg hold, hs1]
  -- no body lists change in a way that depends on being static
  have same : (s.typ b = .static ↔ new = .static) ∨ (s.bodies b).inSpace = false →
      Inv L rest { s with bodies := B } := by
    intro hcase
    refine retype s.dynamicBodies s.staticBodies s.dynamicShapes s.staticShapes ?_ ?_
    · have key : ∀ x, (s.bodies x).inSpace = true → ((B x).type = .static ↔ s.typ x = .static) := by
        intro x hx; rw [hBt]
        split_ifs with e
        · subst e
          rcases hcase with e | e
          · exact e.symm
          · rw [e] at hx; simp at hx
        · rfl
      constructor
      · exact hbi.dynNodup
      · exact hbi.statNodup
      · intro x
        show _ ↔ (B x).inSpace = true ∧ (B x).type ≠ .static ∧ _
        rw [hBin, hbi.memDyn]
        constructor
        · rintro ⟨a1, a2, a3⟩; exact ⟨a1, by rw [ne_eq, key x a1]; exact a2, a3⟩
        · rintro ⟨a1, a2, a3⟩; exact ⟨a1, by rw [ne_eq, ← key x a1]; exact a2, a3⟩
      · intro x
        show _ ↔ (B x).inSpace = true ∧ (B x).type = .static ∧ _
        rw [hBin, hbi.memStat]
        constructor
        · rintro ⟨a1, a2, a3⟩; exact ⟨a1, by rw [key x a1]; exact a2, a3⟩
        · rintro ⟨a1, a2, a3⟩; exact ⟨a1, by rw [← key x a1]; exact a2, a3⟩
      · intro x hx
        show (B x).inSpace = true ∧ (B x).type = .dynamic
        have hxb : x ≠ b := by rintro rfl; exact hA hx
        rw [hBin, hBt, if_neg hxb]; exact hbi.off x hx
      · intro x hx
        exact hbi.bound x (by rw [← hBin]; exact hx)
    · have key : ∀ sh, (s.shapes sh).inSpace = true →
          ((B (s.shapes sh).body).type = .static ↔ s.typ (s.shapes sh).body = .static) := by
        intro sh hx; rw [hBt]
        split_ifs with e
        · rw [e]
          rcases hcase with e' | e'
          · exact e'.symm
          · have := (hsi.memList b sh).2 ⟨hx, e⟩
            rw [hsh e'] at this; simp at this
        · rfl
      constructor
      · intro x; show (B x).shapes.Nodup; rw [hBsh]; exact hsi.listNodup x
      · intro x sh; show sh ∈ (B x).shapes ↔ _; rw [hBsh]; exact hsi.memList x sh
      · exact hsi.statNodup
      · exact hsi.dynNodup
      · intro sh
        show sh ∈ s.staticShapes ↔ (s.shapes sh).inSpace = true ∧ ((B (s.shapes sh).body).type = .static ∨ _)
        rw [hsi.memStat]
        constructor
        · rintro ⟨a1, a2⟩; exact ⟨a1, by rw [key sh a1]; exact a2⟩
        · rintro ⟨a1, a2⟩; exact ⟨a1, by rw [← key sh a1]; exact a2⟩
      · intro sh
        show sh ∈ s.dynamicShapes ↔ (s.shapes sh).inSpace = true ∧ ¬ ((B (s.shapes sh).body).type = .static ∨ _)
        rw [hsi.memDyn]
        constructor
        · rintro ⟨a1, a2⟩; exact ⟨a1, by rw [key sh a1]; exact a2⟩
        · rintro ⟨a1, a2⟩; exact ⟨a1, by rw [← key sh a1]; exact a2⟩
  by_cases hin : (s.bodies b).inSpace = false
  · have : (B b).inSpace = false := by rw [hBin]; exact hin
    rw [if_pos this]
    exact ⟨_, rfl, same (Or.inr hin), frame _ _ _ _⟩
  have hin' : (s.bodies b).inSpace = true := by simpa using hin
  have hin2 : ¬ (B b).inSpace = false := by rw [hBin]; exact hin
  rw [if_neg hin2]
  rw [if_neg (show ¬ s.locked ≠ 0 by simp [hl])]
  have hbl : ∀ sh, sh ∈ (s.bodies b).shapes ↔ (s.shapes sh).inSpace = true ∧ (s.shapes sh).body = b := hsi.memList b
  by_cases hst : s.typ b = .static
  · -- static to something else
    have hns : new ≠ .static := fun e => hold (hst.trans e.symm)
    have hbS : b ∈ s.staticBodies := (hbi.memStat b).2 ⟨hin', hst, hsb⟩
    have hbD : b ∉ s.dynamicBodies := fun e => ((hbi.memDyn b).1 e).2.1 hst
    obtain ⟨SS, DS, e1, nS, nD, mS, mD⟩ := toDynamic_loop (s.bodies b).shapes ({ s with
      bodies := B, staticBodies := s.staticBodies.erase b, dynamicBodies := s.dynamicBodies ++ [b] } : Sp F)
      (hsi.listNodup b) hsi.statNodup hsi.dynNodup (fun sh hsh => by
        have hx := (hbl sh).1 hsh
        constructor
        · exact (hsi.memStat sh).2 ⟨hx.1, Or.inl (by rw [hx.2]; exact hst)⟩
        · intro hd; exact ((hsi.memDyn sh).1 hd).2 (Or.inl (by rw [hx.2]; exact hst)))
    refine ⟨_, ?_, retype (s.dynamicBodies ++ [b]) (s.staticBodies.erase b) DS SS ?_ ?_, frame _ _ _ _⟩
    · have hsb' : (B b).shapes = (s.bodies b).shapes := hBsh b
      rw [← hsb'] at e1
      simp only [hst, ne_eq, not_true_eq_false, if_false, if_true, Option.bind_eq_bind, Option.bind_some]
      exact e1
    · constructor
      · exact nodup_concat hbi.dynNodup hbD
      · exact hbi.statNodup.erase b
      · intro x
        show x ∈ s.dynamicBodies ++ [b] ↔ (B x).inSpace = true ∧ (B x).type ≠ .static ∧ _
        rw [hBin, hBt]
        have := hbi.memDyn x
        by_cases hx : x = b
        · subst hx; simp [hin', hns, hA]
        · simp [hx, this]
      · intro x
        show x ∈ s.staticBodies.erase b ↔ (B x).inSpace = true ∧ (B x).type = .static ∧ _
        rw [hBin, hBt, hbi.statNodup.mem_erase_iff]
        have := hbi.memStat x
        by_cases hx : x = b
        · subst hx; simp [hns]
        · simp [hx, this]
      · intro x hx
        show (B x).inSpace = true ∧ (B x).type = .dynamic
        have hxb : x ≠ b := by rintro rfl; exact hA hx
        rw [hBin, hBt, if_neg hxb]; exact hbi.off x hx
      · intro x hx
        exact hbi.bound x (by rw [← hBin]; exact hx)
    · constructor
      · intro x; show (B x).shapes.Nodup; rw [hBsh]; exact hsi.listNodup x
      · intro x sh; show sh ∈ (B x).shapes ↔ _; rw [hBsh]; exact hsi.memList x sh
      · exact nS
      · exact nD
      · intro sh
        show sh ∈ SS ↔ (s.shapes sh).inSpace = true ∧ ((B (s.shapes sh).body).type = .static ∨ _)
        rw [mS, hBt]
        have h1 := hsi.memStat sh
        have h2 := hbl sh
        show sh ∈ s.staticShapes ∧ _ ↔ _
        by_cases hx : (s.shapes sh).body = b
        · simp [hx, hns, hA, h2]; rw [h1]; tauto
        · simp [hx, h1, h2]
      · intro sh
        show sh ∈ DS ↔ (s.shapes sh).inSpace = true ∧ ¬ ((B (s.shapes sh).body).type = .static ∨ _)
        rw [mD, hBt]
        have h1 := hsi.memDyn sh
        have h2 := hbl sh
        show sh ∈ s.dynamicShapes ∨ _ ↔ _
        by_cases hx : (s.shapes sh).body = b
        · simp [hx, hns, hA, h2, h1, hst]
        · simp [hx, h1, h2]
  by_cases hns : new = .static
  · -- something else to static
    have hbD : b ∈ s.dynamicBodies := (hbi.memDyn b).2 ⟨hin', hst, hA⟩
    have hbS : b ∉ s.staticBodies := fun e => hst ((hbi.memStat b).1 e).2.1
    have hact : ({ s with bodies := B } : Sp F).bodyActivate b = some { s with bodies := B } := by
      rw [bodyActivate, if_pos]
      show (B b).type ≠ _
      rw [hBt, if_pos rfl, hns]; simp
    obtain ⟨SS, DS, e1, nS, nD, mS, mD⟩ := toStatic_loop (s.bodies b).shapes ({ s with
      bodies := B, dynamicBodies := s.dynamicBodies.erase b, staticBodies := s.staticBodies ++ [b] } : Sp F)
      (hsi.listNodup b) hsi.statNodup hsi.dynNodup (fun sh hsh => by
        have hx := (hbl sh).1 hsh
        have hno : ¬ (s.typ (s.shapes sh).body = .static ∨ s.off (s.shapes sh).body) := by
          rw [hx.2]; rintro (e | e)
          · exact hst e
          · exact hA e
        constructor
        · exact (hsi.memDyn sh).2 ⟨hx.1, hno⟩
        · intro hd; exact hno ((hsi.memStat sh).1 hd).2)
    refine ⟨_, ?_, retype (s.dynamicBodies.erase b) (s.staticBodies ++ [b]) DS SS ?_ ?_, frame _ _ _ _⟩
    · have hsb' : (B b).shapes = (s.bodies b).shapes := hBsh b
      rw [← hsb'] at e1
      simp only [ne_eq, hst, not_false_eq_true, if_true, if_false, hact, hns, Option.bind_eq_bind, Option.bind_some]
      exact e1
    · constructor
      · exact hbi.dynNodup.erase b
      · exact nodup_concat hbi.statNodup hbS
      · intro x
        show x ∈ s.dynamicBodies.erase b ↔ (B x).inSpace = true ∧ (B x).type ≠ .static ∧ _
        rw [hBin, hBt, hbi.dynNodup.mem_erase_iff]
        have := hbi.memDyn x
        by_cases hx : x = b
        · subst hx; simp [hns]
        · simp [hx, this]
      · intro x
        show x ∈ s.staticBodies ++ [b] ↔ (B x).inSpace = true ∧ (B x).type = .static ∧ x ≠ s.staticBody
        rw [hBin, hBt]
        have := hbi.memStat x
        by_cases hx : x = b
        · subst hx; simp [hin', hns, hsb]
        · simp [hx, this]
      · intro x hx
        show (B x).inSpace = true ∧ (B x).type = .dynamic
        have hxb : x ≠ b := by rintro rfl; exact hA hx
        rw [hBin, hBt, if_neg hxb]; exact hbi.off x hx
      · intro x hx
        exact hbi.bound x (by rw [← hBin]; exact hx)
    · constructor
      · intro x; show (B x).shapes.Nodup; rw [hBsh]; exact hsi.listNodup x
      · intro x sh; show sh ∈ (B x).shapes ↔ _; rw [hBsh]; exact hsi.memList x sh
      · exact nS
      · exact nD
      · intro sh
        show sh ∈ SS ↔ (s.shapes sh).inSpace = true ∧ ((B (s.shapes sh).body).type = .static ∨ _)
        rw [mS, hBt]
        have h1 := hsi.memStat sh
        have h2 := hbl sh
        show sh ∈ s.staticShapes ∨ _ ↔ _
        by_cases hx : (s.shapes sh).body = b
        · simp [hx, hns, hA, h2, h1, hst]
        · simp [hx, h1, h2]
      · intro sh
        show sh ∈ DS ↔ (s.shapes sh).inSpace = true ∧ ¬ ((B (s.shapes sh).body).type = .static ∨ _)
        rw [mD, hBt]
        have h1 := hsi.memDyn sh
        have h2 := hbl sh
        show sh ∈ s.dynamicShapes ∧ _ ↔ _
        by_cases hx : (s.shapes sh).body = b
        · simp [hx, hns, hA, h2]; rw [h1]; tauto
        · simp [hx, h1, h2]
  · -- between dynamic and kinematic
    have h1 := same (Or.inl ⟨fun e => absurd e hst, fun e => absurd e hns⟩)
    obtain ⟨u, eu, hu, w, -, hr⟩ := bodyActivate_inv h1 b
    have hru := hr (by show (B b).root = none; rw [hBroot]; exact hroot)
    have hshu : (u.bodies b).shapes = (s.bodies b).shapes := by rw [(w.bodies b).shapes]; exact hBsh b
    have hA' : ¬ u.off b := by
      rw [hu.off_iff (by rw [w.locked]; exact hl), hru]
      show ¬ (B b).root ≠ none
      rw [hBroot]; simp [hroot]
    obtain ⟨D, eD, nD, mD⟩ := reindex_loop (u.bodies b).shapes u hu.full.core.shape.dynNodup (fun sh hsh => by
      have hx := (hu.full.core.shape.memList b sh).1 hsh
      refine (hu.full.core.shape.memDyn sh).2 ⟨hx.1, ?_⟩
      rw [hx.2, w.typ]
      rintro (e | e)
      · have : (B b).type = .static := e
        rw [hBt, if_pos rfl] at this; exact hns this
      · exact hA' e)
    refine ⟨_, ?_, hu.permDyn D nD mD, ?_⟩
    · simp only [ne_eq, hst, not_false_eq_true, if_true, if_false, hns, eu, Option.bind_eq_bind, Option.bind_some]
      exact eD
    · constructor
      · intro x; show u.typ x = _; rw [w.typ]; exact hBt x
      · intro x; show (u.bodies x).inSpace = _; rw [(w.bodies x).inSpace]; exact hBin x
      · intro x; show (u.bodies x).root = _; rw [hru]; exact hBroot x
      · exact w.shapes
      · exact w.cons
      · intro x; show (u.bodies x).cons = _; rw [(w.bodies x).cons]; exact hBcons x
      · exact w.locked
      · exact w.nBodies
      · exact w.nCons
      · exact w.staticBody
      · exact w.threshold
      · exact w.trace
      · exact w.stamp
      · exact ⟨w.arbs, w.arbBound, w.pool, fun x => (w.stamps x).imp id And.left⟩

end Sp
end CP
