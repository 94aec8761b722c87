import Verif.Proofs.SpaceAct

/-! # `Space.Activate` and `Space.Deactivate` keep the invariant -/

namespace CP
variable {F : Type}
namespace Sp

/-- `Space.Activate` of a deactivated body in an unlocked space takes it out of the deactivated set. -/
theorem activateBody_core {A : Nat → Prop} {L : Nat → List Nat} {rest : List Nat} {s : Sp F}
    (h : Core A L rest s) (hl : s.locked = 0) {b : Nat} (hb : A b) :
    ∃ s', s.activateBody b = some s' ∧ Core (fun x => A x ∧ x ≠ b) L rest s' ∧ Same s s' ∧
      s'.roused = s.roused ∧ s'.dynamicBodies = s.dynamicBodies ++ [b] := by
  obtain ⟨hin, hdyn⟩ := h.body.off b hb
  -- shapes
  obtain ⟨S, D, e1, hS, hD, mS, mD⟩ := toDynamic_loop (s.bodies b).shapes
    ({ s with dynamicBodies := s.dynamicBodies ++ [b] } : Sp F) (h.shape.listNodup b) h.shape.statNodup
    h.shape.dynNodup (fun sh hsh => by
      have := (h.shape.memList b sh).1 hsh
      constructor
      · show sh ∈ s.staticShapes
        rw [h.shape.memStat]; exact ⟨this.1, Or.inr (by rw [this.2]; exact hb)⟩
      · show sh ∉ s.dynamicShapes
        rw [h.shape.memDyn]; rintro ⟨_, h2⟩; exact h2 (Or.inr (by rw [this.2]; exact hb)))
  -- arbiters
  have hown : ∀ x, x ∈ (L b).filter (s.ownsArb b) ↔ InL L s x ∧ s.owner x = b := h.owned hdyn
  have hnc : ∀ x ∈ (L b).filter (s.ownsArb b), x ∉ s.cached := by
    intro x hx hc
    obtain ⟨hi, ho⟩ := (hown x).1 hx
    exact (h.arb.cachedIff x hi).1 hc (ho ▸ hb)
  have hna : ∀ x ∈ (L b).filter (s.ownsArb b), x ∉ s.arbiters := by
    intro x hx hc
    obtain ⟨hi, ho⟩ := (hown x).1 hx
    rcases (h.arb.mem x).1 hc with h1 | h1
    · exact h1.2 (ho ▸ hb)
    · exact (h.arb.rest x h1).1 hi
  obtain ⟨s2, e2, f2, n2, n2', c2, a2, st2, o2⟩ := restore_loop ((L b).filter (s.ownsArb b))
    ({ s with dynamicBodies := s.dynamicBodies ++ [b], staticShapes := S, dynamicShapes := D } : Sp F)
    ((h.thread.nodup b).filter _)
    (fun hne => by
      obtain ⟨x, hx⟩ := List.exists_mem_of_ne_nil _ hne
      exact h.arb.head x ((hown x).1 hx).1)
    (fun x hx => ⟨b, L b, h.arbList b, (List.mem_filter.1 hx).1⟩)
    (fun x hx => ⟨hnc x hx, hna x hx⟩)
    (fun x hx => any_samePair_false h.arb ((hown x).1 hx).1 (hnc x hx))
    (fun x hx y hy hs => h.arb.uniq x y (Or.inr ((hown x).1 hx).1) (Or.inr ((hown y).1 hy).1) hs)
    h.arb.cachedNodup h.arb.nodup
  obtain ⟨cl, ecl, ncl, mcl⟩ := h.con.conList b
  have hcown : ∀ c, c ∈ cl.filter (s.ownsCon b) ↔ (s.cons c).inSpace = true ∧ s.conOwner c = b := by
    intro c
    rw [List.mem_filter, mcl]
    constructor
    · rintro ⟨⟨h1, h2⟩, h3⟩; exact ⟨h1, (ownsCon_iff hdyn h2).1 h3⟩
    · rintro ⟨h1, h2⟩
      have he := s.conOwner_ends c
      rw [h2] at he
      exact ⟨⟨h1, he⟩, (ownsCon_iff hdyn he).2 h2⟩
  have hS2 : Same s s2 := ⟨f2.nBodies, f2.nCons, f2.bodies, f2.shapes, f2.cons, f2.arbs, f2.arbBound, f2.threshold,
    f2.staticBody, f2.staticBodies, f2.sleeping, f2.pool, f2.locked, f2.stamp, f2.trace, f2.head, f2.stamps⟩
  have htyp : ∀ x, s2.typ x = s.typ x := fun x => hS2.typ x
  have hS3 : Same s ({ s2 with constraints := s2.constraints ++ cl.filter (s.ownsCon b) } : Sp F) :=
    hS2.trans ⟨rfl, rfl, rfl, rfl, rfl, fun _ => .refl _, rfl, rfl, rfl, rfl, rfl, rfl, rfl, rfl, rfl, id, fun _ => .inl rfl⟩
  refine ⟨{ s2 with constraints := s2.constraints ++ cl.filter (s.ownsCon b) }, ?_, ?_, hS3, ?_, ?_⟩
  · rw [activateBody, if_neg (by simp [hl])]
    simp only [Option.bind_eq_bind]
    rw [e1]
    simp only [Option.bind_some]
    have ea : ({ s with dynamicBodies := s.dynamicBodies ++ [b], staticShapes := S, dynamicShapes := D } : Sp F).arbList b
        = some (L b) := h.arbList b
    rw [ea]
    simp only [Option.bind_some]
    have eo : ({ s with dynamicBodies := s.dynamicBodies ++ [b], staticShapes := S, dynamicShapes := D } : Sp F).ownsArb b
        = s.ownsArb b := rfl
    rw [eo, e2]
    simp only [Option.bind_some]
    have ec : s2.conList b = some cl := by rw [hS2.conList]; exact ecl
    rw [ec]
    simp only [Option.bind_some]
    have eoc : s2.ownsCon b = s.ownsCon b := by funext c; exact hS2.ownsCon b c
    rw [eoc]
  · constructor
    · -- bodies
      have hd : s2.dynamicBodies = s.dynamicBodies ++ [b] := f2.dynamicBodies
      have hbd : b ∉ s.dynamicBodies := fun e => ((h.body.memDyn b).1 e).2.2 hb
      constructor
      · show s2.dynamicBodies.Nodup
        rw [hd]; exact nodup_concat h.body.dynNodup hbd
      · show s2.staticBodies.Nodup
        rw [hS2.staticBodies]; exact h.body.statNodup
      · intro x
        show x ∈ s2.dynamicBodies ↔ (s2.bodies x).inSpace = true ∧ s2.typ x ≠ .static ∧ _
        rw [hd, hS2.bodies, htyp, List.mem_append, h.body.memDyn]
        simp only [List.mem_singleton]
        constructor
        · rintro (⟨h1, h2, h3⟩ | rfl)
          · exact ⟨h1, h2, fun e => h3 e.1⟩
          · exact ⟨hin, by rw [hdyn]; simp, fun e => e.2 rfl⟩
        · rintro ⟨h1, h2, h3⟩
          by_cases e : x = b
          · exact Or.inr e
          · exact Or.inl ⟨h1, h2, fun ha => h3 ⟨ha, e⟩⟩
      · intro x
        show x ∈ s2.staticBodies ↔ (s2.bodies x).inSpace = true ∧ s2.typ x = .static ∧ x ≠ s2.staticBody
        rw [hS2.staticBodies, hS2.bodies, htyp, hS2.staticBody]; exact h.body.memStat x
      · rintro x ⟨hx, _⟩
        show (s2.bodies x).inSpace = true ∧ s2.typ x = .dynamic
        rw [hS2.bodies, htyp]; exact h.body.off x hx
      · intro x hx
        show x < s2.nBodies
        rw [hS2.nBodies]
        refine h.body.bound x ?_
        have : (s2.bodies x).inSpace = true := hx
        rwa [hS2.bodies] at this
    · -- shapes
      have eS : s2.staticShapes = S := f2.staticShapes
      have eD : s2.dynamicShapes = D := f2.dynamicShapes
      constructor
      · intro x; show (s2.bodies x).shapes.Nodup; rw [hS2.bodies]; exact h.shape.listNodup x
      · intro x sh
        show sh ∈ (s2.bodies x).shapes ↔ (s2.shapes sh).inSpace = true ∧ (s2.shapes sh).body = x
        rw [hS2.bodies, hS2.shapes]; exact h.shape.memList x sh
      · show s2.staticShapes.Nodup; rw [eS]; exact hS
      · show s2.dynamicShapes.Nodup; rw [eD]; exact hD
      · intro sh
        show sh ∈ s2.staticShapes ↔ (s2.shapes sh).inSpace = true ∧
          (s2.typ (s2.shapes sh).body = .static ∨ (A (s2.shapes sh).body ∧ (s2.shapes sh).body ≠ b))
        rw [eS, mS, hS2.shapes, htyp]
        show sh ∈ s.staticShapes ∧ _ ↔ _
        rw [h.shape.memStat, h.shape.memList]
        constructor
        · rintro ⟨⟨h1, h2⟩, h3⟩
          have hne : (s.shapes sh).body ≠ b := fun e => h3 ⟨h1, e⟩
          exact ⟨h1, h2.imp id (fun e => ⟨e, hne⟩)⟩
        · rintro ⟨h1, h2⟩
          refine ⟨⟨h1, h2.imp id (fun e => e.1)⟩, ?_⟩
          rintro ⟨_, e⟩
          rcases h2 with h2 | h2
          · rw [e, hdyn] at h2; simp at h2
          · exact h2.2 e
      · intro sh
        show sh ∈ s2.dynamicShapes ↔ (s2.shapes sh).inSpace = true ∧
          ¬ (s2.typ (s2.shapes sh).body = .static ∨ (A (s2.shapes sh).body ∧ (s2.shapes sh).body ≠ b))
        rw [eD, mD, hS2.shapes, htyp]
        show sh ∈ s.dynamicShapes ∨ _ ↔ _
        rw [h.shape.memDyn, h.shape.memList]
        constructor
        · rintro (⟨h1, h2⟩ | ⟨h1, h2⟩)
          · exact ⟨h1, fun e => h2 (e.imp id (fun e => e.1))⟩
          · refine ⟨h1, ?_⟩
            rintro (e | e)
            · rw [h2, hdyn] at e; simp at e
            · exact e.2 h2
        · rintro ⟨h1, h2⟩
          by_cases e : (s.shapes sh).body = b
          · exact Or.inr ⟨h1, e⟩
          · exact Or.inl ⟨h1, fun e' => h2 (e'.imp id (fun e' => ⟨e', e⟩))⟩
    · -- constraints
      have eC : s2.constraints = s.constraints := f2.constraints
      constructor
      · intro c hc; show (s2.cons c).a ≠ (s2.cons c).b
        have : (s2.cons c).inSpace = true := hc
        rw [hS2.cons] at this ⊢; exact h.con.ne c this
      · intro c hc; show c < s2.nCons
        have : (s2.cons c).inSpace = true := hc
        rw [hS2.cons] at this; rw [hS2.nCons]; exact h.con.bound c this
      · intro x
        obtain ⟨l, hc, hm⟩ := h.con.list x
        refine ⟨l, ?_, ?_⟩
        · show IsChain (s2.conNext x) (s2.bodies x).cons l
          rw [hS2.conNext, hS2.bodies]; exact hc
        · intro c; show c ∈ l ↔ (s2.cons c).inSpace = true ∧ ((s2.cons c).a = x ∨ (s2.cons c).b = x)
          rw [hS2.cons]; exact hm c
      · show (s2.constraints ++ cl.filter (s.ownsCon b)).Nodup
        rw [eC, List.nodup_append]
        refine ⟨h.con.nodup, ncl.filter _, ?_⟩
        rintro x hx y hy rfl
        exact ((h.con.mem x).1 hx).2 (((hcown x).1 hy).2 ▸ hb)
      · intro c
        show c ∈ s2.constraints ++ cl.filter (s.ownsCon b) ↔ (s2.cons c).inSpace = true ∧
          ¬ (A (s2.conOwner c) ∧ s2.conOwner c ≠ b)
        rw [eC, List.mem_append, h.con.mem, hcown, hS2.cons, hS2.conOwner]
        constructor
        · rintro (⟨h1, h2⟩ | ⟨h1, h2⟩)
          · exact ⟨h1, fun e => h2 e.1⟩
          · exact ⟨h1, fun e => e.2 h2⟩
        · rintro ⟨h1, h2⟩
          by_cases e : s.conOwner c = b
          · exact Or.inr ⟨h1, e⟩
          · exact Or.inl ⟨h1, fun ha => h2 ⟨ha, e⟩⟩
    · exact hS3.threadInv h.thread
    · -- arbiters
      have hI : ∀ x, InL L s2 x ↔ InL L s x := fun x => hS2.inL L x
      have hc2 : ∀ y, y ∈ s2.cached ↔ y ∈ s.cached ∨ (InL L s y ∧ s.owner y = b) := by
        intro y; rw [c2 y, hown]
      have ha2 : ∀ y, y ∈ s2.arbiters ↔ y ∈ s.arbiters ∨ (InL L s y ∧ s.owner y = b) := by
        intro y; rw [a2 y, hown]
      have hlive : ∀ x, (x ∈ s2.cached ∨ InL L s2 x) → (x ∈ s.cached ∨ InL L s x) := by
        intro x hx
        rw [hc2, hI] at hx
        rcases hx with (hx | hx) | hx
        · exact Or.inl hx
        · exact Or.inr hx.1
        · exact Or.inr hx
      constructor
      · intro x
        show x ∈ s2.arbiters ↔ (InL L s2 x ∧ ¬ (A (s2.owner x) ∧ s2.owner x ≠ b)) ∨ x ∈ rest
        rw [ha2, h.arb.mem, hI, hS2.owner]
        constructor
        · rintro ((⟨h1, h2⟩ | h1) | ⟨h1, h2⟩)
          · exact Or.inl ⟨h1, fun e => h2 e.1⟩
          · exact Or.inr h1
          · exact Or.inl ⟨h1, fun e => e.2 h2⟩
        · rintro (⟨h1, h2⟩ | h1)
          · by_cases e : s.owner x = b
            · exact Or.inr ⟨h1, e⟩
            · exact Or.inl (Or.inl ⟨h1, fun ha => h2 ⟨ha, e⟩⟩)
          · exact Or.inl (Or.inr h1)
      · exact n2'
      · exact h.arb.restNodup
      · intro x hx
        have := h.arb.rest x hx
        exact ⟨fun e => this.1 ((hI x).1 e), (hc2 x).2 (Or.inl this.2)⟩
      · intro x hx
        have hx' : InL L s x := (hI x).1 hx
        show x ∈ s2.cached ↔ ¬ (A (s2.owner x) ∧ s2.owner x ≠ b)
        rw [hc2, h.arb.cachedIff x hx', hS2.owner]
        constructor
        · rintro (h1 | h1)
          · exact fun e => h1 e.1
          · exact fun e => e.2 h1.2
        · intro h2
          by_cases e : s.owner x = b
          · exact Or.inr ⟨hx', e⟩
          · exact Or.inl fun ha => h2 ⟨ha, e⟩
      · exact n2
      · intro x y hx hy hs
        have hs' : s2.samePair (s2.arbs x).a (s2.arbs x).b y = true := hs
        rw [hS2.samePair, (hS2.arbs x).a, (hS2.arbs x).b] at hs'
        exact h.arb.uniq x y (hlive x hx) (hlive y hy) hs'
      · intro x hx
        have := h.arb.live x (hlive x hx)
        show (s2.arbs x).bodyA = (s2.shapes (s2.arbs x).a).body ∧ (s2.arbs x).bodyB = (s2.shapes (s2.arbs x).b).body ∧
          (s2.shapes (s2.arbs x).a).inSpace = true ∧ (s2.shapes (s2.arbs x).b).inSpace = true ∧
          (s2.arbs x).bodyA ≠ (s2.arbs x).bodyB ∧ x < s2.arbBound ∧ x ∉ s2.pool
        rw [hS2.shapes, (hS2.arbs x).a, (hS2.arbs x).b, (hS2.arbs x).bodyA, (hS2.arbs x).bodyB, hS2.arbBound,
          hS2.pool]
        exact this
      · show s2.pool.Nodup; rw [hS2.pool]; exact h.arb.poolNodup
      · intro x hx
        show x < s2.arbBound
        rw [hS2.arbBound]; refine h.arb.poolBound x ?_; rw [← hS2.pool]; exact hx
      · intro x hx
        show (s2.arbs x).stamp = s2.stamp
        rw [hS2.stamp]
        rcases (ha2 x).1 hx with hx' | hx'
        · by_cases e : x ∈ (L b).filter (s.ownsArb b)
          · exact st2 x e
          · rw [o2 x e]; exact h.arb.stamp x hx'
        · exact st2 x ((hown x).2 hx')
      · intro x hx
        exact hS2.head (h.arb.head x ((hI x).1 hx))
      · intro x hx hp
        have hx' : x < s2.arbBound := hx
        have hp' : x ∉ s2.pool := hp
        rw [hS2.arbBound] at hx'
        rw [hS2.pool] at hp'
        rcases h.arb.noLeak x hx' hp' with e | e
        · exact Or.inl ((hc2 x).2 (Or.inl e))
        · exact Or.inr ((hI x).2 e)
  · exact f2.roused
  · exact f2.dynamicBodies

/-- `Space.Deactivate` of an active dynamic body puts it into the deactivated set. -/
theorem deactivateBody_core {A : Nat → Prop} {L : Nat → List Nat} {s : Sp F}
    (h : Core A L [] s) {b : Nat} (hb : ¬ A b) (hin : (s.bodies b).inSpace = true) (hdyn : s.typ b = .dynamic) :
    ∃ s', s.deactivateBody b = some s' ∧ Core (fun x => A x ∨ x = b) L [] s' ∧ Same s s' ∧
      s'.roused = s.roused ∧ s'.dynamicBodies = s.dynamicBodies.erase b := by
  obtain ⟨S, D, e1, hS, hD, mS, mD⟩ := toStatic_loop (s.bodies b).shapes
    ({ s with dynamicBodies := s.dynamicBodies.erase b } : Sp F) (h.shape.listNodup b) h.shape.statNodup
    h.shape.dynNodup (fun sh hsh => by
      have := (h.shape.memList b sh).1 hsh
      have hno : ¬ (s.typ (s.shapes sh).body = .static ∨ A (s.shapes sh).body) := by
        rw [this.2, hdyn]; rintro (e | e)
        · simp at e
        · exact hb e
      constructor
      · show sh ∈ s.dynamicShapes
        rw [h.shape.memDyn]; exact ⟨this.1, hno⟩
      · show sh ∉ s.staticShapes
        rw [h.shape.memStat]; rintro ⟨_, h2⟩; exact hno h2)
  have hown : ∀ x, x ∈ (L b).filter (s.ownsArb b) ↔ InL L s x ∧ s.owner x = b := h.owned hdyn
  have hca : ∀ x ∈ (L b).filter (s.ownsArb b), x ∈ s.cached ∧ x ∈ s.arbiters := by
    intro x hx
    obtain ⟨hi, ho⟩ := (hown x).1 hx
    exact ⟨(h.arb.cachedIff x hi).2 (ho ▸ hb), (h.arb.mem x).2 (Or.inl ⟨hi, ho ▸ hb⟩)⟩
  obtain ⟨s2, e2, f2, n2, n2', c2, a2, st2⟩ := uncache_loop ((L b).filter (s.ownsArb b))
    ({ s with dynamicBodies := s.dynamicBodies.erase b, staticShapes := S, dynamicShapes := D } : Sp F)
    ((h.thread.nodup b).filter _) hca h.arb.cachedNodup h.arb.nodup
    (fun x hx y hy hs => h.arb.uniq x y (Or.inr ((hown x).1 hx).1) (Or.inl hy) hs)
  obtain ⟨cl, ecl, ncl, mcl⟩ := h.con.conList b
  have hcown : ∀ c, c ∈ cl.filter (s.ownsCon b) ↔ (s.cons c).inSpace = true ∧ s.conOwner c = b := by
    intro c
    rw [List.mem_filter, mcl]
    constructor
    · rintro ⟨⟨h1, h2⟩, h3⟩; exact ⟨h1, (ownsCon_iff hdyn h2).1 h3⟩
    · rintro ⟨h1, h2⟩
      have he := s.conOwner_ends c
      rw [h2] at he
      exact ⟨⟨h1, he⟩, (ownsCon_iff hdyn he).2 h2⟩
  have hS2 : Same s s2 := ⟨f2.nBodies, f2.nCons, f2.bodies, f2.shapes, f2.cons, f2.arbs, f2.arbBound, f2.threshold,
    f2.staticBody, f2.staticBodies, f2.sleeping, f2.pool, f2.locked, f2.stamp, f2.trace, f2.head, f2.stamps⟩
  have htyp : ∀ x, s2.typ x = s.typ x := fun x => hS2.typ x
  have eC0 : s2.constraints = s.constraints := f2.constraints
  obtain ⟨C, e3, nC, mC⟩ := removeCon_foldl (cl.filter (s.ownsCon b)) s2 (by rw [eC0]; exact h.con.nodup)
  rw [eC0] at mC
  have hS3 : Same s ({ s2 with constraints := C } : Sp F) :=
    hS2.trans ⟨rfl, rfl, rfl, rfl, rfl, fun _ => .refl _, rfl, rfl, rfl, rfl, rfl, rfl, rfl, rfl, rfl, id, fun _ => .inl rfl⟩
  refine ⟨{ s2 with constraints := C }, ?_, ?_, hS3, ?_, ?_⟩
  · simp only [deactivateBody, Option.bind_eq_bind]
    rw [e1]
    simp only [Option.bind_some]
    have ea : ({ s with dynamicBodies := s.dynamicBodies.erase b, staticShapes := S, dynamicShapes := D } : Sp F).arbList b
        = some (L b) := h.arbList b
    rw [ea]
    simp only [Option.bind_some]
    have eo : ({ s with dynamicBodies := s.dynamicBodies.erase b, staticShapes := S, dynamicShapes := D } : Sp F).ownsArb b
        = s.ownsArb b := rfl
    rw [eo, e2]
    simp only [Option.bind_some]
    have ec : s2.conList b = some cl := by rw [hS2.conList]; exact ecl
    rw [ec]
    simp only [Option.bind_some]
    have eoc : s2.ownsCon b = s.ownsCon b := by funext c; exact hS2.ownsCon b c
    rw [eoc, e3]
  · constructor
    · have hd : s2.dynamicBodies = s.dynamicBodies.erase b := f2.dynamicBodies
      constructor
      · show s2.dynamicBodies.Nodup
        rw [hd]; exact h.body.dynNodup.erase b
      · show s2.staticBodies.Nodup
        rw [hS2.staticBodies]; exact h.body.statNodup
      · intro x
        show x ∈ s2.dynamicBodies ↔ (s2.bodies x).inSpace = true ∧ s2.typ x ≠ .static ∧ _
        rw [hd, hS2.bodies, htyp, List.Nodup.mem_erase_iff h.body.dynNodup, h.body.memDyn]
        tauto
      · intro x
        show x ∈ s2.staticBodies ↔ (s2.bodies x).inSpace = true ∧ s2.typ x = .static ∧ x ≠ s2.staticBody
        rw [hS2.staticBodies, hS2.bodies, htyp, hS2.staticBody]; exact h.body.memStat x
      · rintro x hx
        show (s2.bodies x).inSpace = true ∧ s2.typ x = .dynamic
        rw [hS2.bodies, htyp]
        rcases hx with hx | rfl
        · exact h.body.off x hx
        · exact ⟨hin, hdyn⟩
      · intro x hx
        show x < s2.nBodies
        rw [hS2.nBodies]
        refine h.body.bound x ?_
        have : (s2.bodies x).inSpace = true := hx
        rwa [hS2.bodies] at this
    · have eS : s2.staticShapes = S := f2.staticShapes
      have eD : s2.dynamicShapes = D := f2.dynamicShapes
      constructor
      · intro x; show (s2.bodies x).shapes.Nodup; rw [hS2.bodies]; exact h.shape.listNodup x
      · intro x sh
        show sh ∈ (s2.bodies x).shapes ↔ (s2.shapes sh).inSpace = true ∧ (s2.shapes sh).body = x
        rw [hS2.bodies, hS2.shapes]; exact h.shape.memList x sh
      · show s2.staticShapes.Nodup; rw [eS]; exact hS
      · show s2.dynamicShapes.Nodup; rw [eD]; exact hD
      · intro sh
        show sh ∈ s2.staticShapes ↔ (s2.shapes sh).inSpace = true ∧
          (s2.typ (s2.shapes sh).body = .static ∨ (A (s2.shapes sh).body ∨ (s2.shapes sh).body = b))
        rw [eS, mS, hS2.shapes, htyp]
        show sh ∈ s.staticShapes ∨ _ ↔ _
        rw [h.shape.memStat, h.shape.memList]
        tauto
      · intro sh
        show sh ∈ s2.dynamicShapes ↔ (s2.shapes sh).inSpace = true ∧
          ¬ (s2.typ (s2.shapes sh).body = .static ∨ (A (s2.shapes sh).body ∨ (s2.shapes sh).body = b))
        rw [eD, mD, hS2.shapes, htyp]
        show sh ∈ s.dynamicShapes ∧ _ ↔ _
        rw [h.shape.memDyn, h.shape.memList]
        tauto
    · constructor
      · intro c hc; show (s2.cons c).a ≠ (s2.cons c).b
        have : (s2.cons c).inSpace = true := hc
        rw [hS2.cons] at this ⊢; exact h.con.ne c this
      · intro c hc; show c < s2.nCons
        have : (s2.cons c).inSpace = true := hc
        rw [hS2.cons] at this; rw [hS2.nCons]; exact h.con.bound c this
      · intro x
        obtain ⟨l, hc, hm⟩ := h.con.list x
        refine ⟨l, ?_, ?_⟩
        · show IsChain (s2.conNext x) (s2.bodies x).cons l
          rw [hS2.conNext, hS2.bodies]; exact hc
        · intro c; show c ∈ l ↔ (s2.cons c).inSpace = true ∧ ((s2.cons c).a = x ∨ (s2.cons c).b = x)
          rw [hS2.cons]; exact hm c
      · exact nC
      · intro c
        show c ∈ C ↔ (s2.cons c).inSpace = true ∧ ¬ (A (s2.conOwner c) ∨ s2.conOwner c = b)
        rw [mC, h.con.mem, hcown, hS2.cons, hS2.conOwner]
        tauto
    · exact hS3.threadInv h.thread
    · have hI : ∀ x, InL L s2 x ↔ InL L s x := fun x => hS2.inL L x
      have hc2 : ∀ y, y ∈ s2.cached ↔ y ∈ s.cached ∧ ¬ (InL L s y ∧ s.owner y = b) := by
        intro y; rw [c2 y, hown]
      have ha2 : ∀ y, y ∈ s2.arbiters ↔ y ∈ s.arbiters ∧ ¬ (InL L s y ∧ s.owner y = b) := by
        intro y; rw [a2 y, hown]
      have hlive : ∀ x, (x ∈ s2.cached ∨ InL L s2 x) → (x ∈ s.cached ∨ InL L s x) := by
        intro x hx
        rw [hc2, hI] at hx
        exact hx.imp (fun e => e.1) id
      constructor
      · intro x
        show x ∈ s2.arbiters ↔ (InL L s2 x ∧ ¬ (A (s2.owner x) ∨ s2.owner x = b)) ∨ x ∈ []
        rw [ha2, h.arb.mem, hI, hS2.owner]
        simp only [List.not_mem_nil, or_false]
        tauto
      · exact n2'
      · exact h.arb.restNodup
      · intro x hx; simp at hx
      · intro x hx
        have hx' : InL L s x := (hI x).1 hx
        show x ∈ s2.cached ↔ ¬ (A (s2.owner x) ∨ s2.owner x = b)
        rw [hc2, h.arb.cachedIff x hx', hS2.owner]
        tauto
      · exact n2
      · intro x y hx hy hs
        have hs' : s2.samePair (s2.arbs x).a (s2.arbs x).b y = true := hs
        rw [hS2.samePair, (hS2.arbs x).a, (hS2.arbs x).b] at hs'
        exact h.arb.uniq x y (hlive x hx) (hlive y hy) hs'
      · intro x hx
        have := h.arb.live x (hlive x hx)
        show (s2.arbs x).bodyA = (s2.shapes (s2.arbs x).a).body ∧ (s2.arbs x).bodyB = (s2.shapes (s2.arbs x).b).body ∧
          (s2.shapes (s2.arbs x).a).inSpace = true ∧ (s2.shapes (s2.arbs x).b).inSpace = true ∧
          (s2.arbs x).bodyA ≠ (s2.arbs x).bodyB ∧ x < s2.arbBound ∧ x ∉ s2.pool
        rw [hS2.shapes, (hS2.arbs x).a, (hS2.arbs x).b, (hS2.arbs x).bodyA, (hS2.arbs x).bodyB, hS2.arbBound,
          hS2.pool]
        exact this
      · show s2.pool.Nodup; rw [hS2.pool]; exact h.arb.poolNodup
      · intro x hx
        show x < s2.arbBound
        rw [hS2.arbBound]; refine h.arb.poolBound x ?_; rw [← hS2.pool]; exact hx
      · intro x hx
        show (s2.arbs x).stamp = s2.stamp
        rw [hS2.stamp, st2]
        exact h.arb.stamp x ((ha2 x).1 hx).1
      · intro x hx
        exact hS2.head (h.arb.head x ((hI x).1 hx))
      · intro x hx hp
        have hx' : x < s2.arbBound := hx
        have hp' : x ∉ s2.pool := hp
        rw [hS2.arbBound] at hx'
        rw [hS2.pool] at hp'
        by_cases hi : InL L s x
        · exact Or.inr ((hI x).2 hi)
        · exact Or.inl ((hc2 x).2 ⟨(h.arb.noLeak x hx' hp').resolve_right hi, fun e => hi e.1⟩)
  · exact f2.roused
  · exact f2.dynamicBodies

end Sp
end CP
