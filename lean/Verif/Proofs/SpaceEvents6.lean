import Verif.Proofs.SpaceEvents5

/-! # The callbacks of the other operations -/

namespace CP
variable {F : Type}
namespace Sp
variable [GoFloat F]

set_option maxHeartbeats 2000000 in
theorem op_calm {L : Nat → List Nat} {s : Sp F} (h : World L s) (o : Op F) (ok : o.Allowed s) (hq : o.loud = false) :
    ∃ t, o.run s = some t ∧ Inv L [] t ∧ (∀ x, ArbEq (s.arbs x) (t.arbs x)) ∧ t.arbBound = s.arbBound ∧ t.pool = s.pool ∧ t.trace = s.trace := by
  have hl := h.unlocked
  have hi := h.good.inv
  cases o with
  | addBody b =>
    obtain ⟨t, e, i, ht⟩ := addBody_inv hi ok.1 ok.2
    exact ⟨t, e, i, fun x => by rw [ht]; exact .refl _, by rw [ht], by rw [ht], by rw [ht]⟩
  | removeBody b =>
    obtain ⟨t, u, e, i, w, ht⟩ := removeBody_inv hi hl ok.1 ok.2.1
    exact ⟨t, e, i, fun x => by rw [ht]; exact w.arbs x, by rw [ht]; exact w.arbBound, by rw [ht]; exact w.pool, by rw [ht]; exact w.trace⟩
  | setType b ty =>
    obtain ⟨t, L', e, w, ef⟩ := op_good h (.setType b ty) ok
    obtain ⟨o1, o2, o3, o4⟩ := ok
    have hlink : ∀ c, s.Linked b c ↔ (∃ x, InL L s x ∧ (((s.arbs x).bodyA = b ∧ (s.arbs x).bodyB = c) ∨ ((s.arbs x).bodyA = c ∧ (s.arbs x).bodyB = b))) ∨
        (∃ k, (s.cons k).inSpace = true ∧ (((s.cons k).a = b ∧ (s.cons k).b = c) ∨ ((s.cons k).a = c ∧ (s.cons k).b = b))) := by
      intro c
      obtain ⟨N, -, n1, n2⟩ := hi.full.core.graph
      rw [← n1, n2]
    have o3' : s.typ b = .static → ∀ c, s.Linked b c → (s.bodies c).root = none := by
      intro q c hc
      by_contra hr
      exact o3 q ⟨c, hc, hr⟩
    have hst : s.typ b = .static → (∀ x ∈ L b, (s.bodies (s.otherBody b x)).root = none) ∧
      ∀ c, (s.cons c).inSpace = true → (s.cons c).a = b ∨ (s.cons c).b = b → (s.bodies (s.otherCon b c)).root = none := by
      refine fun q => ⟨fun x hx => ?_, fun c q1 q2 => ?_⟩
      · refine o3' q _ ((hlink _).2 (.inl ⟨x, hi.full.core.thread.inL hx, ?_⟩))
        simp only [otherBody]
        rcases hi.full.core.thread.ends b x hx with e | e
        · rw [if_pos e]; exact .inl ⟨e, rfl⟩
        · split_ifs with q
          · exact .inl ⟨q, rfl⟩
          · exact .inr ⟨rfl, e⟩
      · refine o3' q _ ((hlink _).2 (.inr ⟨c, q1, ?_⟩))
        simp only [otherCon]
        rcases q2 with e | e
        · rw [if_pos e.symm]; exact .inl ⟨e, rfl⟩
        · split_ifs with q
          · exact .inl ⟨q.symm, rfl⟩
          · exact .inr ⟨rfl, e⟩
    obtain ⟨t, e, i, f⟩ := setType_inv hi hl o1 o2 hst
      (fun q => hasShapes_of_list hi.full.core.shape b (o4 q).1) ty
    exact ⟨t, e, i, f.kept.arbs, f.kept.arbBound, f.kept.pool, f.trace⟩
  | addShape sh =>
    obtain ⟨t, u, e, i, w, ht⟩ := addShape_inv hi hl ok.1
    exact ⟨t, e, i, fun x => by rw [ht]; exact w.arbs x, by rw [ht]; exact w.arbBound, by rw [ht]; exact w.pool, by rw [ht]; exact w.trace⟩
  | removeShape sh acts => simp [Op.loud] at hq
  | addConstraint c =>
    obtain ⟨o1, o2, o3, o4, o5⟩ := ok
    obtain ⟨t, e, i, f, hs, hli⟩ := addConstraint_inv hi hl o1 o2 o3
    exact ⟨t, e, i, f.kept.arbs, f.kept.arbBound, f.kept.pool, f.trace⟩
  | removeConstraint c =>
    obtain ⟨t, e, i, f, hs, hli⟩ := removeConstraint_inv hi hl ok
    exact ⟨t, e, i, f.kept.arbs, f.kept.arbBound, f.kept.pool, f.trace⟩
  | activate b =>
    obtain ⟨t, e, g, w, -⟩ := bodyActivate_good h.good b
    exact ⟨t, e, g.inv, w.arbs, w.arbBound, w.pool, w.trace⟩
  | activateStatic b f =>
    obtain ⟨t, e, i, w, -⟩ := activateStatic_inv hi b f
    exact ⟨t, e, i, w.arbs, w.arbBound, w.pool, w.trace⟩
  | setGravity =>
    obtain ⟨t, e, w, k⟩ := gravityLoop_good s.sleeping.length 0 s.sleeping s h
    exact ⟨t, e, w.good.inv, k.arbs, k.arbBound, k.pool, k.trace⟩
  | setThreshold x =>
    obtain ⟨t, L', e, w, ef⟩ := op_good h (.setThreshold x) ok
    obtain rfl : ({ s with threshold := x } : Sp F) = t := Option.some.inj e
    refine ⟨_, e, ?_, fun _ => .refl _, rfl, rfl, rfl⟩
    have : L' = L := by
      funext b
      have e1 := w.good.inv.full.core.arbList b
      have e2 := hi.full.core.arbList b
      have e3 : ({ s with threshold := x } : Sp F).arbList b = s.arbList b := rfl
      rw [e3, e2] at e1
      exact (Option.some.inj e1).symm
    rw [← this]; exact w.good.inv
  | query script =>
    obtain ⟨t, e, g, tl, sc, -⟩ := script_good script h.good (by rw [hl]; exact ok)
    exact ⟨t, e, g.inv, sc.arbs, sc.held.2, sc.held.1, sc.trace⟩
  | step i => simp [Op.loud] at hq

theorem pairSt_congr {L L' : Nat → List Nat} {s t : Sp F} (hs : Inv L [] s) (ht : Inv L' [] t) {p q : Nat}
    (hb : t.arbBound = s.arbBound) (h : ∀ x, s.samePair p q x = true → ((x ∈ t.pool ↔ x ∈ s.pool) ∧ (t.arbs x).state = (s.arbs x).state ∧ (InL L' t x ↔ InL L s x)))
    (hp : ∀ x, t.samePair p q x = s.samePair p q x) : t.pairSt p q = s.pairSt p q := by
  have ho : ∀ x, Open t p q x ↔ Open s p q x := by
    intro x
    simp only [Open, hb, hp]
    constructor
    · rintro ⟨a1, a2, a3, a4⟩
      obtain ⟨h1, h2, h3⟩ := h x a4
      exact ⟨a1, fun e => a2 (h1.2 e), by rw [← h2]; exact a3, a4⟩
    · rintro ⟨a1, a2, a3, a4⟩
      obtain ⟨h1, h2, h3⟩ := h x a4
      exact ⟨a1, fun e => a2 (h1.1 e), by rw [h2]; exact a3, a4⟩
  by_cases hx : ∃ x, Open s p q x
  · obtain ⟨x, hx⟩ := hx
    obtain ⟨h1, h2, h3⟩ := h x hx.2.2.2
    rw [pairSt_open hs hx, pairSt_open ht ((ho x).2 hx), h2]
    by_cases hi : InL L s x
    · rw [if_pos hi, if_pos (h3.2 hi)]
    · rw [if_neg hi, if_neg (fun z => hi (h3.1 z))]
  · have hn : ∀ x, ¬ Open s p q x := by simpa using hx
    rw [pairSt_apart hn, pairSt_apart fun x e => hn x ((ho x).1 e)]

theorem op_quiet {L : Nat → List Nat} {s : Sp F} (h : World L s) (o : Op F) (ok : o.Allowed s) (hq : o.loud = false) :
    ∃ t, o.run s = some t ∧ t.trace = s.trace ∧ ∀ p q, t.pairSt p q = s.pairSt p q := by
  obtain ⟨t, e, i, a, b, c, d⟩ := op_calm h o ok hq
  refine ⟨t, e, d, fun p q => pairSt_congr h.good.inv i b (fun x _ => ⟨by rw [c], (a x).state, ?_⟩) fun x => ?_⟩
  · simp only [InL, (a x).bodyA]
  · simp only [samePair, (a x).a, (a x).b]

theorem remove_events {L : Nat → List Nat} {s : Sp F} (h : World L s) {sh : Nat} (hs : (s.shapes sh).inSpace = true)
    (acts : Nat → List Nat) :
    ∃ t, s.removeShape sh acts = some t ∧ ∃ new, t.trace = s.trace ++ new ∧ ∀ p q, (word p q new, t.pairSt p q) =
      if p = sh ∨ q = sh then (if s.pairSt p q = .apart then [] else [.separate], .apart) else ([], s.pairSt p q) := by
  obtain ⟨t, L', e, g, k, -, hno, cut, hin⟩ := removeShape_good h.good h.unlocked hs acts
  obtain ⟨new, etr, hsep⟩ := cut.emits
  refine ⟨t, e, new, etr, fun p q => ?_⟩
  obtain ⟨z, e1, hz⟩ := h.good.tr.agree p q
  obtain ⟨z', e2, hz'⟩ := g.tr.agree p q
  have hpr : (word p q new).foldl protoNext (some z) = some z' := by
    rw [← e2, etr, proto_append, e1]
  obtain ⟨s1, s2⟩ := proto_separates (word_kind hsep) hpr
  have hap : z = true ↔ ¬ s.pairSt p q = .apart := by
    rw [hz, pairSt_apart_iff h.good.inv]; simp
  have hap' : z' = true ↔ ¬ t.pairSt p q = .apart := by
    rw [hz', pairSt_apart_iff g.inv]; simp
  by_cases hsh : p = sh ∨ q = sh
  · have hn : ∀ x, ¬ Open t p q x := by
      intro x hx
      refine hno x (g.inv.full.core.arb.noLeak x hx.1 hx.2.1) ?_
      have := (samePair_iff t p q x).1 hx.2.2.2
      simp only [Touches]
      rcases hsh with q1 | q1 <;> subst q1 <;> rcases this with ⟨a1, a2⟩ | ⟨a1, a2⟩ <;> simp [a1, a2]
    have ht := pairSt_apart hn
    rw [if_pos hsh, ht, s2]
    have hz0 : z' = false := by
      rw [← Bool.not_eq_true, hap', ht]; simp
    congr 1
    rw [hz0]
    by_cases hs : s.pairSt p q = .apart
    · rw [if_pos hs, if_neg]; rintro ⟨q1, -⟩; exact hap.1 q1 hs
    · rw [if_neg hs, if_pos ⟨hap.2 hs, rfl⟩]
  · rw [if_neg hsh]
    have hsame : t.pairSt p q = s.pairSt p q := by
      refine pairSt_congr h.good.inv g.inv cut.arbBound (fun x hx => ?_) fun x => ?_
      · have hnt : ¬ Touches s sh x := by
          rintro (z | z) <;> rcases (samePair_iff s p q x).1 hx with ⟨a1, a2⟩ | ⟨a1, a2⟩ <;> exact hsh (by rw [z]; simp [a1, a2])
        exact ⟨cut.pool x hnt, cut.state x hnt, hin x hnt⟩
      · simp only [samePair, (cut.ends x).1, (cut.ends x).2]
    rw [hsame, s2]
    congr 1
    have : z' = z := by
      rw [Bool.eq_iff_iff, hap, hap', hsame]
    rw [this]; cases z <;> simp

end Sp
end CP
