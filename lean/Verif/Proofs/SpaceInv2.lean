import Verif.Proofs.SpaceFull

/-! # The whole invariant; locks, queries, `ActivateStatic` -/

namespace CP
variable {F : Type}
namespace Sp

/-- A sleeping body only touches static bodies and bodies of its own component. -/
def Bound (s : Sp F) (p q : Nat) : Prop :=
  (s.bodies p).root ≠ none → s.typ q = .static ∨ (s.bodies q).root = (s.bodies p).root

/-- Contacts and joints do not lead out of a sleeping component. -/
structure Closed (L : Nat → List Nat) (s : Sp F) : Prop where
  arb : ∀ x, InL L s x → Bound s (s.arbs x).bodyA (s.arbs x).bodyB ∧ Bound s (s.arbs x).bodyB (s.arbs x).bodyA
  con : ∀ c, (s.cons c).inSpace = true → Bound s (s.cons c).a (s.cons c).b ∧ Bound s (s.cons c).b (s.cons c).a

variable [GoFloat F]

/-- Numbers: kinematic bodies are never idle, the threshold is positive, without threshold nobody sleeps. -/
structure NumInv (s : Sp F) : Prop where
  kin : ∀ b, s.typ b = .kinematic → (s.bodies b).idle = .time 0
  pos : ∀ t, s.threshold = .time t → 0 < t
  inf : s.threshold = .infinity → s.sleeping = []
  sb : (s.bodies s.staticBody).inSpace = true ∧ s.typ s.staticBody = .static

/-- The invariant of the space between operations (with `rest = []`) and inside of a step. -/
structure Inv (L : Nat → List Nat) (rest : List Nat) (s : Sp F) : Prop where
  full : Full L rest s
  closed : Closed L s
  num : NumInv s

theorem Woke.bound {s t : Sp F} (w : Woke s t) {p q : Nat} (h : Bound s p q) : Bound t p q := by
  intro hp
  have e : (t.bodies p).root = (s.bodies p).root := by
    rcases w.root p with e | e
    · exact e
    · exact absurd e hp
  rw [e] at hp
  rcases h hp with h1 | h1
  · left; rw [w.typ]; exact h1
  · right; exact w.comp q p h1

theorem Woke.closed {L : Nat → List Nat} {s t : Sp F} (w : Woke s t) (h : Closed L s) : Closed L t where
  arb x hx := by
    have := h.arb x ((w.inL L x).1 hx)
    rw [(w.arbs x).bodyA, (w.arbs x).bodyB]
    exact ⟨w.bound this.1, w.bound this.2⟩
  con c hc := by
    rw [w.cons] at hc ⊢
    exact ⟨w.bound (h.con c hc).1, w.bound (h.con c hc).2⟩

theorem Woke.num {s t : Sp F} (w : Woke s t) (h : NumInv s) : NumInv t where
  kin b hb := by
    rw [w.typ] at hb
    rcases w.idle b with e | e
    · rw [e]; exact h.kin b hb
    · exact e
  pos t ht := h.pos t (by rw [← w.threshold]; exact ht)
  inf ht := by
    have := w.sleeping
    rw [h.inf (by rw [← w.threshold]; exact ht)] at this
    exact List.sublist_nil.1 this
  sb := by rw [w.staticBody, (w.bodies _).inSpace, w.typ]; exact h.sb

theorem Woke.root_none {s t : Sp F} (w : Woke s t) {b : Nat} (h : (s.bodies b).root = none) :
    (t.bodies b).root = none := by
  rcases w.root b with e | e
  · rw [e, h]
  · exact e

theorem bodyActivate_inv {L : Nat → List Nat} {rest : List Nat} {s : Sp F} (h : Inv L rest s) (b : Nat) :
    ∃ t, s.bodyActivate b = some t ∧ Inv L rest t ∧ Woke s t ∧ (t.bodies b).root = none ∧
      ((s.bodies b).root = none → ∀ x, (t.bodies x).root = (s.bodies x).root) := by
  obtain ⟨t, e, f, w, r, -⟩ := bodyActivate_spec h.full b
  refine ⟨t, e, ⟨f, w.closed h.closed, w.num h.num⟩, w, ?_, fun hn x => ?_⟩
  · rw [r]
    split_ifs with e
    · rfl
    · by_contra hne
      exact e ⟨(h.full.root_dynamic hne).2, rfl⟩
  · rw [r]
    split_ifs with e
    · rw [e.2, hn]
    · rfl

theorem runActs_inv {L : Nat → List Nat} {rest : List Nat} : ∀ (l : List Nat) {s : Sp F}, Inv L rest s →
    ∃ t, s.runActs l = some t ∧ Inv L rest t ∧ Woke s t ∧ (∀ b ∈ l, (t.bodies b).root = none) ∧
      ((∀ b ∈ l, (s.bodies b).root = none) → ∀ x, (t.bodies x).root = (s.bodies x).root)
  | [], s, h => ⟨s, rfl, h, .refl s, by simp, by simp⟩
  | b :: l, s, h => by
    obtain ⟨t1, e1, h1, w1, n1, r1⟩ := bodyActivate_inv h b
    obtain ⟨t, e, h2, w, n, r⟩ := runActs_inv l h1
    refine ⟨t, ?_, h2, w1.trans w, ?_, ?_⟩
    · simp only [runActs, List.foldlM_cons, Option.bind_eq_bind]
      rw [e1]; exact e
    · intro x hx
      rcases List.mem_cons.1 hx with rfl | hx
      · exact w.root_none n1
      · exact n x hx
    · intro hall x
      have hx1 := r1 (hall b (by simp))
      rw [r (fun y hy => by rw [hx1]; exact hall y (by simp [hy])), hx1]

/-- `ActivateStatic`: the bodies touching the (filtered) shapes are awake. -/
theorem activateStatic_inv {L : Nat → List Nat} {rest : List Nat} {s : Sp F} (h : Inv L rest s) (b : Nat)
    (fl : Option Nat) : ∃ t, s.activateStatic b fl = some t ∧ Inv L rest t ∧ Woke s t ∧
      ∀ x ∈ L b, (fl = none ∨ fl = some (s.arbs x).a ∨ fl = some (s.arbs x).b) →
        (t.bodies (s.otherBody b x)).root = none := by
  have key : ∀ (l : List Nat) (s : Sp F), Inv L rest s → ∃ t, l.foldlM (fun s x =>
      if fl = none ∨ fl = some (s.arbs x).a ∨ fl = some (s.arbs x).b then
        s.bodyActivate (s.otherBody b x) else some s) s = some t ∧ Inv L rest t ∧ Woke s t ∧
      ∀ x ∈ l, (fl = none ∨ fl = some (s.arbs x).a ∨ fl = some (s.arbs x).b) →
        (t.bodies (s.otherBody b x)).root = none := by
    intro l
    induction l with
    | nil => intro s h; exact ⟨s, rfl, h, .refl s, by simp⟩
    | cons y l ih =>
      intro s h
      have step : ∃ t1, (if fl = none ∨ fl = some (s.arbs y).a ∨ fl = some (s.arbs y).b then
          s.bodyActivate (s.otherBody b y) else some s) = some t1 ∧ Inv L rest t1 ∧ Woke s t1 ∧
          ((fl = none ∨ fl = some (s.arbs y).a ∨ fl = some (s.arbs y).b) →
            (t1.bodies (s.otherBody b y)).root = none) := by
        split_ifs with hc
        · obtain ⟨t1, e1, h1, w1, n1, -⟩ := bodyActivate_inv h (s.otherBody b y)
          exact ⟨t1, e1, h1, w1, fun _ => n1⟩
        · exact ⟨s, rfl, h, .refl s, fun h => absurd h hc⟩
      obtain ⟨t1, e1, h1, w1, n1⟩ := step
      obtain ⟨t, e, h2, w, n⟩ := ih t1 h1
      refine ⟨t, ?_, h2, w1.trans w, ?_⟩
      · simp only [List.foldlM_cons, Option.bind_eq_bind]
        rw [e1]; exact e
      · intro x hx hf
        rcases List.mem_cons.1 hx with rfl | hx
        · exact w.root_none (n1 hf)
        · have := n x hx (by rw [(w1.arbs x).a, (w1.arbs x).b]; exact hf)
          rw [w1.otherBody] at this; exact this
  obtain ⟨t, e, hr⟩ := key (L b) s h
  refine ⟨t, ?_, hr⟩
  rw [activateStatic, h.full.core.arbList b]
  exact e

/-! ## Locks -/

theorem lock_inv {L : Nat → List Nat} {rest : List Nat} {s : Sp F} (h : Inv L rest s) : Inv L rest s.lock where
  full := ⟨h.full.core.setLocked _, ⟨h.full.sleep.aIff, h.full.sleep.rousedNodup, h.full.sleep.rousedRoot,
    h.full.sleep.sleepNodup, h.full.sleep.chain, h.full.sleep.rootless, fun e => by simp [lock] at e⟩, h.full.quiet⟩
  closed := ⟨h.closed.arb, h.closed.con⟩
  num := ⟨h.num.kin, h.num.pos, h.num.inf, h.num.sb⟩

theorem Same.closed {L : Nat → List Nat} {s t : Sp F} (w : Same s t) (h : Closed L s) : Closed L t where
  arb x hx := by
    have := h.arb x ((w.inL L x).1 hx)
    rw [(w.arbs x).bodyA, (w.arbs x).bodyB]
    simpa only [Bound, w.bodies, w.typ] using this
  con c hc := by
    rw [w.cons] at hc ⊢
    simpa only [Bound, w.bodies, w.typ] using h.con c hc

theorem Same.num {s t : Sp F} (w : Same s t) (h : NumInv s) : NumInv t where
  kin b hb := by rw [w.typ] at hb; rw [w.bodies]; exact h.kin b hb
  pos t ht := h.pos t (by rw [← w.threshold]; exact ht)
  inf ht := by rw [w.sleeping]; exact h.inf (by rw [← w.threshold]; exact ht)
  sb := by rw [w.staticBody, w.bodies, w.typ]; exact h.sb

/-- Releasing the outermost lock wakes the bodies on the list. -/
theorem unlock_last {L : Nat → List Nat} {rest : List Nat} {s : Sp F} (h : Inv L rest s) (hl : s.locked = 1) :
    ∃ t, s.unlock = some t ∧ Inv L rest t ∧ Same { s with locked := 0 } t ∧ t.roused = [] ∧
      t.dynamicBodies = s.dynamicBodies ++ s.roused ∧ (s.roused = [] → t = { s with locked := 0 }) := by
  obtain ⟨t, e, c, sm, hr, hd, hlk⟩ := foldlM_loop (f := activateBody)
    (fun l (t : Sp F) => Core (fun b => (∃ r ∈ s.sleeping, (s.bodies b).root = some r) ∨ b ∈ l) L rest t ∧
      Same { s with locked := 0 } t ∧ t.roused = s.roused ∧ s.dynamicBodies ++ s.roused = t.dynamicBodies ++ l ∧
      (l.Nodup ∧ ∀ b ∈ l, (s.bodies b).root = none))
    (fun b l t ⟨c, sm, hr, hd, hn, hroot⟩ => by
      have hl0 : t.locked = 0 := sm.locked
      obtain ⟨t', e', c', sm', r', d'⟩ := activateBody_core c hl0 (b := b) (Or.inr (by simp))
      refine ⟨t', e', c'.congrA fun x => ?_, sm.trans sm', r'.trans hr, ?_, (List.nodup_cons.1 hn).2,
        fun x hx => hroot x (by simp [hx])⟩
      · constructor
        · rintro ⟨h1 | h1, h2⟩
          · exact Or.inl h1
          · rcases List.mem_cons.1 h1 with e | e
            · exact absurd e h2
            · exact Or.inr e
        · rintro (h1 | h1)
          · refine ⟨Or.inl h1, ?_⟩
            rintro rfl
            obtain ⟨r, _, e⟩ := h1
            rw [hroot x (by simp)] at e; simp at e
          · refine ⟨Or.inr (by simp [h1]), ?_⟩
            rintro rfl
            exact (List.nodup_cons.1 hn).1 h1
      · rw [d', hd]; simp)
    s.roused ({ s with locked := 0 } : Sp F)
    ⟨h.full.core.setLocked 0, .refl _, rfl, rfl, h.full.sleep.rousedNodup, h.full.sleep.rousedRoot⟩
  have hun : s.unlock = some { t with roused := [] } := by
    simp only [unlock, hl]
    simp only [Option.bind_eq_bind]
    rw [if_neg (by simp), if_neg (by simp)]
    have : ({ s with locked := 1 - 1 } : Sp F) = { s with locked := 0 } := rfl
    rw [this]
    show ((List.foldlM activateBody ({ s with locked := 0 } : Sp F) s.roused).bind _) = _
    rw [e]; rfl
  have sm' : Same { s with locked := 0 } ({ t with roused := [] } : Sp F) :=
    ⟨sm.nBodies, sm.nCons, sm.bodies, sm.shapes, sm.cons, sm.arbs, sm.arbBound, sm.threshold, sm.staticBody,
      sm.staticBodies, sm.sleeping, sm.pool, sm.locked, sm.stamp, sm.trace, sm.head, sm.stamps⟩
  have hb : t.bodies = s.bodies := sm.bodies
  have hsl : t.sleeping = s.sleeping := sm.sleeping
  refine ⟨_, hun, ⟨?_, sm'.closed ⟨h.closed.arb, h.closed.con⟩, sm'.num ⟨h.num.kin, h.num.pos, h.num.inf, h.num.sb⟩⟩, sm',
    rfl, ?_, ?_⟩
  · refine Full.of (c.roused []) ⟨?_, by simp, by simp, ?_, ?_, ?_, fun _ => rfl⟩ ?_
    · intro b
      show _ ↔ (∃ r ∈ t.sleeping, (t.bodies b).root = some r) ∨ b ∈ []
      rw [hb, hsl]
    · show t.sleeping.Nodup; rw [hsl]; exact h.full.sleep.sleepNodup
    · show ∀ r ∈ t.sleeping, ∃ l, IsChain (fun b => (t.bodies b).next) (some r) l ∧
        ∀ b, b ∈ l ↔ (t.bodies b).root = some r
      rw [hsl, hb]; exact h.full.sleep.chain
    · show ∀ b, (t.bodies b).root = none → (t.bodies b).next = none
      rw [hb]; exact h.full.sleep.rootless
    · show ∀ b r, (t.bodies b).root = some r → r ∈ t.sleeping
      rw [hb, hsl]; exact h.full.quiet
  · show t.dynamicBodies = _; rw [hd]; simp
  · intro hR
    have e2 : ∀ (l : List Nat) (X : Sp F), l = [] → l.foldlM activateBody X = some t → t = X := by
      rintro l X rfl h; simpa using h.symm
    have e3 := e2 _ _ hR e
    have e4 : s.roused = t.roused := by rw [e3]
    rw [hR] at e4
    rw [e4]; exact e3

/-- A query with callbacks that wake bodies. -/
theorem query_inv {L : Nat → List Nat} {rest : List Nat} {s : Sp F} (h : Inv L rest s) (hl : s.locked = 0)
    (acts : List Nat) : ∃ t, s.query acts = some t ∧ Inv L rest t ∧ t.locked = 0 ∧
      (∀ b ∈ acts, (t.bodies b).root = none) := by
  obtain ⟨t1, e1, h1, w1, n1, -⟩ := runActs_inv acts (lock_inv h)
  obtain ⟨t, e, h2, sm, -⟩ := unlock_last h1 (by rw [w1.locked]; simp [lock, hl])
  refine ⟨t, ?_, h2, sm.locked, fun b hb => ?_⟩
  · rw [query, e1]; exact e
  · rw [sm.bodies]; exact n1 b hb

end Sp
end CP
