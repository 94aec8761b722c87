import Verif.Proofs.SpaceReset

/-! # Collisions: the arbiter of a reported pair -/

namespace CP
variable {F : Type}
namespace Sp

/-- `t` is `s` with the arbiter `x` set up for the pair of shapes `a`, `b`. -/
structure Enter (s : Sp F) (a b x : Nat) (t : Sp F) : Prop where
  eq : t = { s with arbs := t.arbs, cached := t.cached, pool := t.pool, arbBound := t.arbBound }
  others : ∀ y, y ≠ x → t.arbs y = s.arbs y
  ends : (t.arbs x).a = a ∧ (t.arbs x).b = b ∧ (t.arbs x).bodyA = (s.shapes a).body ∧ (t.arbs x).bodyB = (s.shapes b).body
  th : (t.arbs x).thA = {} ∧ (t.arbs x).thB = {}
  cached : ∀ y, y ∈ t.cached ↔ y ∈ s.cached ∨ y = x
  nodup : t.cached.Nodup
  pool : ∀ y, y ∈ t.pool ↔ y ∈ s.pool ∧ y ≠ x
  poolNodup : t.pool.Nodup
  bound : s.arbBound ≤ t.arbBound ∧ x < t.arbBound ∧ ∀ y, y < t.arbBound → y < s.arbBound ∨ y = x
  alone : ∀ y, y ≠ x → y ∈ s.cached → s.samePair a b y = false

theorem Enter.around {s t : Sp F} {a b x : Nat} (h : Enter s a b x t) : Around s t := by
  constructor
  case body => intro y; rw [h.eq]
  all_goals rw [h.eq]

variable [GoFloat F]

/-- Setting up an arbiter that is not in the lists keeps the invariant. -/
theorem Inv.enter {L : Nat → List Nat} {rest : List Nat} {s t : Sp F} (h : Inv L rest s) {a b x : Nat}
    (n : Enter s a b x t) (hx : ¬ InL L s x) (hxb : ∀ c, x ∉ L c) (hr : x ∉ s.arbiters)
    (ha : (s.shapes a).inSpace = true) (hb : (s.shapes b).inSpace = true)
    (hne : (s.shapes a).body ≠ (s.shapes b).body)
    (hin : ∀ y, InL L s y → s.samePair a b y = false) : Inv L rest t := by
  have k := h.full.core.arb
  have w := n.around
  have e1 : t.arbiters = s.arbiters := by rw [n.eq]
  have e2 : t.stamp = s.stamp := by rw [n.eq]
  have e3 : t.head = s.head := by rw [n.eq]
  have hix : ¬ InL L t x := hxb _
  have hi : ∀ y, InL L t y ↔ InL L s y := by
    intro y
    by_cases e : y = x
    · subst e; exact ⟨fun q => absurd q hix, fun q => absurd q hx⟩
    · simp only [InL, n.others y e]
  have hiy : ∀ y, InL L s y → t.arbs y = s.arbs y := by
    intro y hy
    refine n.others y ?_
    rintro rfl; exact hx hy
  have hbods : t.bodies = s.bodies := by rw [n.eq]
  have hmemx : ∀ c y, y ∈ L c → t.arbs y = s.arbs y := by
    intro c y hy
    refine n.others y ?_
    rintro rfl; exact hxb c hy
  have alone : ∀ y, y ≠ x → (y ∈ s.cached ∨ InL L s y) → s.samePair a b y = false := by
    rintro y hy (e | e)
    · exact n.alone y hy e
    · exact hin y e
  have hor : ∀ y, y ≠ x → (y ∈ t.cached ∨ InL L t y) → (y ∈ s.cached ∨ InL L s y) := by
    intro y hy; rw [n.cached, hi]; tauto
  have hxr : x ∉ rest := fun e => hr ((k.mem x).2 (Or.inr e))
  refine h.editArbs w ⟨h.full.core.thread.nodup, fun c => ?_, fun c => ?_, fun c y hy => ?_, fun y => ?_, fun y hy => ?_⟩
    ⟨fun y => ?_, ?_, k.restNodup, fun y hy => ?_, fun y hy => ?_, n.nodup, fun y z hy hz hs => ?_, fun y hy => ?_,
      n.poolNodup, fun y hy => ?_, fun y hy => ?_, fun y hy => ?_, fun y hy hp => ?_⟩ fun y hy => ?_
  · rw [hbods]; exact h.full.core.thread.head c
  · exact (h.full.core.thread.dl c).congr fun y hy => by simp only [thread, hmemx c y hy]
  · rw [hmemx c y hy]; exact h.full.core.thread.ends c y hy
  · by_cases e : y = x
    · subst e; exact ⟨fun q => absurd q (hxb _), fun q => absurd q (hxb _)⟩
    · rw [n.others y e]; exact h.full.core.thread.both y
  · by_cases e : y = x
    · subst e; exact n.th
    · rw [n.others y e] at hy ⊢; exact h.full.core.thread.out y hy
  · rw [e1, hi, k.mem]
    by_cases e : InL L s y
    · simp only [owner, w.typ, hiy y e]
    · simp only [e, false_and]
  · rw [e1]; exact k.nodup
  · rw [hi, n.cached]; exact ⟨(k.rest y hy).1, Or.inl (k.rest y hy).2⟩
  · rw [hi] at hy
    have : y ≠ x := by rintro rfl; exact hx hy
    rw [n.cached]
    simp only [owner, w.typ, hiy y hy, this, or_false]
    exact k.cachedIff y hy
  · rw [samePair_iff] at hs
    by_cases ey : y = x
    · by_cases ez : z = x
      · rw [ey, ez]
      · subst ey
        have := alone z ez (hor z ez hz)
        rw [Bool.eq_false_iff, Ne, samePair_iff] at this
        rw [n.others z ez, n.ends.1, n.ends.2.1] at hs
        exact absurd hs this
    · by_cases ez : z = x
      · subst ez
        have := alone y ey (hor y ey hy)
        rw [Bool.eq_false_iff, Ne, samePair_iff] at this
        rw [n.others y ey, n.ends.1, n.ends.2.1] at hs
        omega
      · rw [n.others y ey, n.others z ez] at hs
        exact k.uniq y z (hor y ey hy) (hor z ez hz) ((samePair_iff ..).2 hs)
  · by_cases e : y = x
    · subst e
      rw [n.ends.1, n.ends.2.1, n.ends.2.2.1, n.ends.2.2.2, w.shapes]
      exact ⟨rfl, rfl, ha, hb, hne, n.bound.2.1, fun q => ((n.pool y).1 q).2 rfl⟩
    · rw [n.others y e, w.shapes]
      obtain ⟨l1, l2, l3, l4, l5, l6, l7⟩ := k.live y (hor y e hy)
      exact ⟨l1, l2, l3, l4, l5, lt_of_lt_of_le l6 n.bound.1, fun q => l7 ((n.pool y).1 q).1⟩
  · exact lt_of_lt_of_le (k.poolBound y ((n.pool y).1 hy).1) n.bound.1
  · rw [e1] at hy
    have : y ≠ x := by rintro rfl; exact hr hy
    rw [n.others y this, e2]; exact k.stamp y hy
  · rw [e3]; exact k.head y ((hi y).1 hy)
  · rw [n.cached, hi]
    by_cases e : y = x
    · exact Or.inl (Or.inr e)
    · have hyb : y < s.arbBound := by
        rcases n.bound.2.2 y hy with q | q
        · exact q
        · exact absurd q e
      rcases k.noLeak y hyb (fun q => hp ((n.pool y).2 ⟨q, e⟩)) with q | q
      · exact Or.inl (Or.inl q)
      · exact Or.inr q
  · rw [hi] at hy
    rw [hiy y hy]; exact h.closed.arb y hy

/-- A pair whose shapes already touch: nothing changes for the protocol. -/
theorem TraceInv.enter_old {L : Nat → List Nat} {s t : Sp F} (h : TraceInv L s) {a b x : Nat}
    (n : Enter s a b x t) (hx : ¬ InL L s x) (hxb : ∀ c, x ∉ L c) (hb : x < s.arbBound) (hp : x ∉ s.pool)
    (hs : s.samePair a b x = true) (ho : ¬ (s.arbs x).state.closed) (hst : (t.arbs x).state = (s.arbs x).state) :
    TraceInv L t := by
  have hopen : ∀ p q y, Open t p q y ↔ Open s p q y := by
    intro p q y
    by_cases e : y = x
    · subst e
      simp only [Open, hst]
      rw [samePair_iff, samePair_iff, n.ends.1, n.ends.2.1]
      rw [samePair_iff] at hs
      have h1 : y < t.arbBound := n.bound.2.1
      have h2 : y ∉ t.pool := fun q => ((n.pool y).1 q).2 rfl
      constructor
      · rintro ⟨-, -, z, z'⟩
        exact ⟨hb, hp, z, by omega⟩
      · rintro ⟨-, -, z, z'⟩
        exact ⟨h1, h2, z, by omega⟩
    · have e2 : t.samePair p q y = s.samePair p q y := by simp only [samePair, n.others y e]
      simp only [Open, n.others y e, e2, n.pool]
      constructor
      · rintro ⟨z1, z2, z3⟩
        refine ⟨?_, fun q => z2 ⟨q, e⟩, z3⟩
        rcases n.bound.2.2 y z1 with q | q
        · exact q
        · exact absurd q e
      · rintro ⟨z1, z2, z3⟩
        exact ⟨lt_of_lt_of_le z1 n.bound.1, fun q => z2 q.1, z3⟩
  have htr : t.trace = s.trace := by rw [n.eq]
  refine ⟨fun p q => ?_, fun y hy => ?_⟩
  · obtain ⟨z, z1, z2⟩ := h.agree p q
    refine ⟨z, by rw [htr]; exact z1, ?_⟩
    rw [z2]; simp only [hopen]
  · have e : y ≠ x := by rintro rfl; exact hxb _ hy
    have : InL L s y := by simpa only [InL, n.others y e] using hy
    rw [n.others y e]; exact h.threaded y this

/-- A pair whose shapes did not touch: Begin. -/
theorem TraceInv.enter_new {L : Nat → List Nat} {rest : List Nat} {s t : Sp F} (h : TraceInv L s) (i : Inv L rest s)
    {a b x : Nat} (n : Enter s a b x t) (hxb : ∀ c, x ∉ L c)
    (hin : ∀ y, InL L s y → s.samePair a b y = false)
    (hc : x < s.arbBound → x ∉ s.pool → (s.arbs x).state.closed) (ho : ¬ (t.arbs x).state.closed) :
    TraceInv L (t.emit .begin x) := by
  have hbx : x < t.arbBound := n.bound.2.1
  have hpx : x ∉ t.pool := fun q => ((n.pool x).1 q).2 rfl
  have hopen : ∀ y, y ≠ x → ∀ p q, Open t p q y ↔ Open s p q y := by
    intro y e p q
    have e2 : t.samePair p q y = s.samePair p q y := by simp only [samePair, n.others y e]
    simp only [Open, n.others y e, e2, n.pool]
    constructor
    · rintro ⟨z1, z2, z3⟩
      refine ⟨?_, fun q => z2 ⟨q, e⟩, z3⟩
      rcases n.bound.2.2 y z1 with q | q
      · exact q
      · exact absurd q e
    · rintro ⟨z1, z2, z3⟩
      exact ⟨lt_of_lt_of_le z1 n.bound.1, fun q => z2 q.1, z3⟩
  have htr : t.trace = s.trace := by rw [n.eq]
  have hts : t.stamp = s.stamp := by rw [n.eq]
  refine ⟨agree_event h.agree (x := x) (before := false) (after := true) (n := s.stamp) (k := .begin)
    (a := a) (b := b) ?_ rfl hopen ?_ ?_ ?_, ?_⟩
  · show t.trace ++ [_] = _
    rw [htr, hts, n.ends.1, n.ends.2.1]
  · intro p q
    exact ⟨fun z => absurd (hc z.1 z.2.1) z.2.2.1, fun z => by simp at z⟩
  · intro p q
    show (x < t.arbBound ∧ x ∉ t.pool ∧ ¬ (t.arbs x).state.closed ∧ t.samePair p q x = true) ↔ _
    rw [samePair_iff, n.ends.1, n.ends.2.1]
    exact ⟨fun z => ⟨rfl, z.2.2.2⟩, fun z => ⟨hbx, hpx, ho, z.2⟩⟩
  · intro y e z
    rcases i.full.core.arb.noLeak y z.1 z.2.1 with q | q
    · have := n.alone y e q
      rw [z.2.2.2] at this; simp at this
    · have := hin y q
      rw [z.2.2.2] at this; simp at this
  · intro y hy
    have hy' : y ∈ L (t.arbs y).bodyA := hy
    have e : y ≠ x := by rintro rfl; exact hxb _ hy'
    have : InL L s y := by simpa only [InL, n.others y e] using hy'
    show ¬ (t.arbs y).state.closed
    rw [n.others y e]; exact h.threaded y this

theorem Inv.not_inL_of_free {L : Nat → List Nat} {rest : List Nat} {s : Sp F} (h : Inv L rest s) {x : Nat}
    (hx : ¬ InL L s x) (c : Nat) : x ∉ L c := fun e => hx (h.full.core.thread.inL e)

/-- Looking up the arbiter of a pair and updating it. -/
theorem lookup_enter {L : Nat → List Nat} {rest : List Nat} {s : Sp F} (h : Inv L rest s)
    (hoff : ∀ x, InL L s x → x ∉ s.cached) (a b count k o : Nat) (pick : Option Nat) :
    ∃ t x, (s.lookupArb a b pick).1.updateArb (s.lookupArb a b pick).2 a b count k o = t ∧
      (s.lookupArb a b pick).2 = x ∧ Enter s a b x t ∧ ¬ InL L s x ∧
      (t.arbs x).count = count ∧ (t.arbs x).mem = .ring k o ∧
      ((x ∈ s.cached ∧ s.samePair a b x = true ∧ (t.arbs x).stamp = (s.arbs x).stamp ∧
          (t.arbs x).state = if (s.arbs x).state = .cached then .first else (s.arbs x).state) ∨
        ((x ∈ s.pool ∨ s.arbBound ≤ x) ∧ (∀ y ∈ s.cached, s.samePair a b y = false) ∧
          (t.arbs x).state = .first ∧ (t.arbs x).stamp = 0)) := by
  have kk := h.full.core.arb
  cases hf : s.cached.find? (s.samePair a b) with
  | some x =>
    have hxc : x ∈ s.cached := List.mem_of_find?_eq_some hf
    have hxs : s.samePair a b x = true := List.find?_some hf
    have hni : ¬ InL L s x := fun e => hoff x e hxc
    obtain ⟨l1, l2, l3, l4, l5, l6, l7⟩ := kk.live x (Or.inl hxc)
    have e1 : s.lookupArb a b pick = (s, x) := by simp only [lookupArb, hf]
    rw [e1]
    refine ⟨_, x, rfl, rfl, ⟨rfl, fun y hy => ?_, ?_, ?_, fun y => ?_, kk.cachedNodup, fun y => ?_, kk.poolNodup, ⟨le_refl _, l6, fun y hy => Or.inl hy⟩,
      fun y hy hyc => ?_⟩, hni, ?_, ?_, Or.inl ⟨hxc, hxs, ?_, ?_⟩⟩
    · simp [updateArb, setArb, hy]
    · simp [updateArb, setArb]
    · have := h.full.core.thread.out x hni
      simpa [updateArb, setArb] using this
    · constructor
      · exact Or.inl
      · rintro (e | rfl)
        · exact e
        · exact hxc
    · show y ∈ s.pool ↔ _
      constructor
      · intro e; exact ⟨e, by rintro rfl; exact l7 e⟩
      · exact fun e => e.1
    · rw [Bool.eq_false_iff]
      intro e
      refine hy (kk.uniq x y (Or.inl hxc) (Or.inl hyc) ?_).symm
      rw [samePair_iff] at *
      omega
    · simp [updateArb, setArb]
    · simp [updateArb, setArb]
    · simp [updateArb, setArb]
    · simp [updateArb, setArb]
  | none =>
    have hno : ∀ y ∈ s.cached, s.samePair a b y = false := by
      intro y hy
      have := List.find?_eq_none.1 hf y hy
      simpa using this
    have fin : ∀ (x : Nat) (P : List Nat) (n : Nat), (x ∈ s.pool ∨ s.arbBound ≤ x) →
        (∀ y, y ∈ P ↔ y ∈ s.pool ∧ y ≠ x) → P.Nodup → (s.arbBound ≤ n ∧ x < n ∧ ∀ y, y < n → y < s.arbBound ∨ y = x) →
        s.lookupArb a b pick = ({ ({ s with pool := P, arbBound := n } : Sp F).setArb x (fun _ => { a := a, b := b, bodyA := (s.shapes a).body, bodyB := (s.shapes b).body }) with cached := s.cached ++ [x] }, x) →
        ∃ t x, (s.lookupArb a b pick).1.updateArb (s.lookupArb a b pick).2 a b count k o = t ∧
          (s.lookupArb a b pick).2 = x ∧ Enter s a b x t ∧ ¬ InL L s x ∧
          (t.arbs x).count = count ∧ (t.arbs x).mem = .ring k o ∧
          ((x ∈ s.cached ∧ s.samePair a b x = true ∧ (t.arbs x).stamp = (s.arbs x).stamp ∧
              (t.arbs x).state = if (s.arbs x).state = .cached then .first else (s.arbs x).state) ∨
            ((x ∈ s.pool ∨ s.arbBound ≤ x) ∧ (∀ y ∈ s.cached, s.samePair a b y = false) ∧
              (t.arbs x).state = .first ∧ (t.arbs x).stamp = 0)) := by
      intro x P n hx hP hPn hn e1
      have hdead : ¬ (x ∈ s.cached ∨ InL L s x) := by
        intro e
        obtain ⟨l1, l2, l3, l4, l5, l6, l7⟩ := kk.live x e
        rcases hx with q | q
        · exact l7 q
        · omega
      rw [not_or] at hdead
      rw [e1]
      refine ⟨_, x, rfl, rfl, ⟨rfl, fun y hy => ?_, ?_, ?_, fun y => ?_, nodup_concat kk.cachedNodup hdead.1, hP, hPn, hn,
        fun y _ hyc => hno y hyc⟩, hdead.2, ?_, ?_, Or.inr ⟨hx, hno, ?_, ?_⟩⟩
      · simp [updateArb, setArb, hy]
      · simp [updateArb, setArb]
      · simp [updateArb, setArb]
      · show y ∈ s.cached ++ [x] ↔ _
        simp
      · simp [updateArb, setArb]
      · simp [updateArb, setArb]
      · simp [updateArb, setArb]
      · simp [updateArb, setArb]
    have fresh : s.lookupArb a b pick = ({ ({ s with pool := s.pool, arbBound := s.arbBound + 1 } : Sp F).setArb s.arbBound (fun _ => { a := a, b := b, bodyA := (s.shapes a).body, bodyB := (s.shapes b).body }) with cached := s.cached ++ [s.arbBound] }, s.arbBound) →
        _ := fun e => fin s.arbBound s.pool (s.arbBound + 1) (Or.inr (le_refl _)) (fun y => by
          constructor
          · intro q; exact ⟨q, by have := kk.poolBound y q; omega⟩
          · exact fun q => q.1) kk.poolNodup ⟨by omega, by omega, fun y hy => by omega⟩ e
    cases hp : pick with
    | none =>
      rw [hp] at fresh
      exact fresh (by simp only [lookupArb, hf]; rfl)
    | some y =>
      rw [hp] at fresh fin
      by_cases hy : y ∈ s.pool
      · refine fin y (s.pool.erase y) s.arbBound (Or.inl hy) (fun z => ?_) (kk.poolNodup.erase y)
          ⟨le_refl _, kk.poolBound y hy, fun z hz => Or.inl hz⟩ ?_
        · rw [kk.poolNodup.mem_erase_iff]; tauto
        · simp only [lookupArb, hf, if_pos hy]; rfl
      · exact fresh (by simp only [lookupArb, hf, if_neg hy]; rfl)

end Sp
end CP
