import Verif.Proofs.SpaceRemove

/-! # The beginning of a step: the arbiters of the last step are taken out of the lists -/

namespace CP
variable {F : Type}
namespace Sp

/-- The loop at the beginning of `Step`. -/
theorem reset_loop : ∀ (l : List Nat) (L : Nat → List Nat) (s : Sp F), ThreadInv L s →
    (∀ x ∈ l, s.isSleeping (s.arbs x).bodyA = false ∧ s.isSleeping (s.arbs x).bodyB = false ∧
      (s.arbs x).bodyA ≠ (s.arbs x).bodyB) →
    ∃ L', ThreadInv L' (l.foldl resetArb s) ∧
      l.foldl resetArb s = { s with bodies := (l.foldl resetArb s).bodies, arbs := (l.foldl resetArb s).arbs } ∧
      (∀ b, (l.foldl resetArb s).bodies b = { s.bodies b with arbs := ((l.foldl resetArb s).bodies b).arbs }) ∧
      (∀ y, (l.foldl resetArb s).arbs y = { s.arbs y with
        thA := ((l.foldl resetArb s).arbs y).thA, thB := ((l.foldl resetArb s).arbs y).thB
        state := if y ∈ l then .normal else (s.arbs y).state }) ∧
      ∀ y, InL L' (l.foldl resetArb s) y ↔ InL L s y ∧ y ∉ l
  | [], L, s, h, _ => ⟨L, h, rfl, fun _ => rfl, fun y => by simp, by simp⟩
  | x :: l, L, s, h, hs => by
    obtain ⟨hA, hB, hne⟩ := hs x (by simp)
    obtain ⟨u, hu⟩ : ∃ u : Sp F, u = s.setArb x fun r => { r with state := .normal } := ⟨_, rfl⟩
    have ua : ∀ y, u.arbs y = { s.arbs y with state := if y = x then .normal else (s.arbs y).state } := by
      intro y; rw [hu]
      by_cases e : y = x
      · subst e; simp [setArb]
      · simp [setArb, e]
    have hth : ThreadInv L u := by
      have e1 : ∀ y b, u.thread y b = s.thread y b := fun y b => by simp only [thread, ua]
      refine ⟨h.nodup, fun b => ?_, fun b => ?_, fun b y => ?_, fun y => ?_, fun y => ?_⟩
      · rw [hu]; exact h.head b
      · exact (h.dl b).congr fun y _ => e1 y b
      · simp only [ua]; exact h.ends b y
      · simp only [ua]; exact h.both y
      · simp only [ua]; exact h.out y
    have hr : s.resetArb x = u.unthread x := by
      simp only [resetArb]
      rw [← hu]
      have e1 : u.isSleeping (u.arbs x).bodyA = false := by rw [ua, hu]; exact hA
      have e2 : u.isSleeping (u.arbs x).bodyB = false := by rw [ua, hu]; exact hB
      rw [if_pos ⟨e1, e2⟩]
    obtain ⟨t1, t2, t3⟩ := unthread_thread hth (x := x) (fun _ => by rw [ua]; exact hne)
    rw [← hr] at t1 t2 t3
    have va : ∀ y, (s.resetArb x).arbs y = { s.arbs y with
        thA := ((s.resetArb x).arbs y).thA, thB := ((s.resetArb x).arbs y).thB
        state := if y = x then .normal else (s.arbs y).state } := by
      intro y; have := t2.arb y; rw [ua y] at this; exact this
    have vb : ∀ b, (s.resetArb x).bodies b = { s.bodies b with arbs := ((s.resetArb x).bodies b).arbs } := by
      intro b; have := t2.body b; rw [hu] at this; exact this
    have ve : s.resetArb x = { s with bodies := (s.resetArb x).bodies, arbs := (s.resetArb x).arbs } := by
      have := t2.eq; rw [hu] at this; exact this
    obtain ⟨L', p1, p2, p3, p4, p5⟩ := reset_loop l (popL L x) (s.resetArb x) t1 (fun y hy => by
      obtain ⟨a1, a2, a3⟩ := hs y (by simp [hy])
      simp only [isSleeping] at a1 a2 ⊢
      rw [va y]
      refine ⟨?_, ?_, a3⟩
      · rw [vb]; exact a1
      · rw [vb]; exact a2)
    simp only [List.foldl_cons]
    refine ⟨L', p1, ?_, fun b => ?_, fun y => ?_, fun y => ?_⟩
    · rw [ve] at p2 ⊢; exact p2
    · have := p3 b; rw [vb b] at this; exact this
    · have := p4 y
      rw [va y] at this
      rw [this]
      congr 1
      by_cases e1 : y ∈ l
      · simp [e1]
      · by_cases e2 : y = x
        · simp [e2]
        · simp [e1, e2]
    · rw [p5, t3]
      simp only [InL, ua, List.mem_cons, not_or]
      tauto

variable [GoFloat F]

/-- An arbiter of the list of the step has both ends awake. -/
theorem Inv.arbiter_awake {L : Nat → List Nat} {s : Sp F} (h : Inv L [] s) (hl : s.locked = 0) {x : Nat}
    (hx : x ∈ s.arbiters) : (s.bodies (s.arbs x).bodyA).root = none ∧ (s.bodies (s.arbs x).bodyB).root = none := by
  have hm := (h.full.core.arb.mem x).1 hx
  simp only [List.not_mem_nil, or_false] at hm
  obtain ⟨hi, ho⟩ := hm
  rw [h.off_iff hl, not_not] at ho
  obtain ⟨c1, c2⟩ := h.closed.arb x hi
  by_cases hA : s.typ (s.arbs x).bodyA = .static
  · have e : s.owner x = (s.arbs x).bodyB := by simp [owner, hA]
    rw [e] at ho
    refine ⟨?_, ho⟩
    by_contra hne
    have := (h.full.root_dynamic hne).2
    rw [hA] at this; simp at this
  · have e : s.owner x = (s.arbs x).bodyA := by simp [owner, hA]
    rw [e] at ho
    refine ⟨ho, ?_⟩
    by_contra hne
    rcases c2 hne with e | e
    · exact hA e
    · rw [ho] at e; exact hne e.symm

/-- The state after the first part of `Step`. -/
def begun (s : Sp F) : Sp F := { ({ s with stamp := s.stamp + 1 } : Sp F).arbiters.foldl resetArb
    ({ s with stamp := s.stamp + 1 } : Sp F) with arbiters := [] }

theorem begun_good {L : Nat → List Nat} {s : Sp F} (h : Good L [] s) (hl : s.locked = 0) :
    ∃ L', Good L' [] s.begun ∧ Around s s.begun ∧ s.begun.arbiters = [] ∧ (∀ x, InL L' s.begun x → s.begun.off (s.begun.owner x)) ∧
      s.begun.stamp = s.stamp + 1 ∧ s.begun.trace = s.trace ∧ s.begun.cached = s.cached ∧ s.begun.pool = s.pool ∧
      s.begun.arbBound = s.arbBound ∧ s.begun.bufs = s.bufs ∧ s.begun.head = s.head ∧ s.begun.bufBound = s.bufBound ∧
      (∀ y, s.begun.arbs y = { s.arbs y with thA := (s.begun.arbs y).thA, thB := (s.begun.arbs y).thB, state := if y ∈ s.arbiters then .normal else (s.arbs y).state }) ∧
      (∀ y, InL L' s.begun y ↔ InL L s y ∧ s.off (s.owner y)) := by
  have k := h.inv.full.core.arb
  obtain ⟨L', p1, p2, p3, p4, p5⟩ := reset_loop s.arbiters L ({ s with stamp := s.stamp + 1 } : Sp F)
    ⟨h.inv.full.core.thread.nodup, h.inv.full.core.thread.head, h.inv.full.core.thread.dl, h.inv.full.core.thread.ends,
      h.inv.full.core.thread.both, h.inv.full.core.thread.out⟩
    (fun x hx => by
      obtain ⟨a1, a2⟩ := h.inv.arbiter_awake hl hx
      have hi : InL L s x := by
        have hm := (k.mem x).1 hx
        simp only [List.not_mem_nil, or_false] at hm
        exact hm.1
      refine ⟨?_, ?_, (k.live x (Or.inr hi)).2.2.2.2.1⟩
      · show (s.bodies (s.arbs x).bodyA).root.isSome = false
        rw [a1]; rfl
      · show (s.bodies (s.arbs x).bodyB).root.isSome = false
        rw [a2]; rfl)
  obtain ⟨r, hr⟩ : ∃ r, r = s.arbiters.foldl resetArb ({ s with stamp := s.stamp + 1 } : Sp F) := ⟨_, rfl⟩
  rw [← hr] at p1 p2 p3 p4 p5
  have hb : s.begun = { r with arbiters := [] } := by rw [hr]; rfl
  have w : Around s s.begun := by
    rw [hb]
    constructor
    case body => exact p3
    all_goals (show _ = _; rw [p2])
  have ha : s.begun.arbs = r.arbs := by rw [hb]
  have e1 : s.begun.arbiters = [] := by rw [hb]
  have e2 : s.begun.cached = s.cached := by rw [hb, p2]
  have e3 : s.begun.pool = s.pool := by rw [hb, p2]
  have e4 : s.begun.arbBound = s.arbBound := by rw [hb, p2]
  have e5 : s.begun.stamp = s.stamp + 1 := by rw [hb, p2]
  have e6 : s.begun.head = s.head := by rw [hb, p2]
  have e7 : s.begun.trace = s.trace := by rw [hb, p2]
  have e8 : s.begun.bufs = s.bufs := by rw [hb, p2]
  have e9 : s.begun.bufBound = s.bufBound := by rw [hb, p2]
  have p4' : ∀ y, s.begun.arbs y = { s.arbs y with thA := (s.begun.arbs y).thA, thB := (s.begun.arbs y).thB, state := if y ∈ s.arbiters then .normal else (s.arbs y).state } := by
    intro y; rw [ha]; exact p4 y
  have hA : ∀ y, (s.begun.arbs y).bodyA = (s.arbs y).bodyA := fun y => by rw [p4' y]
  have hB : ∀ y, (s.begun.arbs y).bodyB = (s.arbs y).bodyB := fun y => by rw [p4' y]
  have ea : ∀ y, (s.begun.arbs y).a = (s.arbs y).a := fun y => by rw [p4' y]
  have eb : ∀ y, (s.begun.arbs y).b = (s.arbs y).b := fun y => by rw [p4' y]
  have ho : ∀ x, s.begun.owner x = s.owner x := fun x => by simp only [owner, w.typ, hA, hB]
  have hp : ∀ a b x, s.begun.samePair a b x = s.samePair a b x := fun a b x => by simp only [samePair, ea, eb]
  have hi : ∀ y, InL L' s.begun y ↔ InL L s y ∧ s.off (s.owner y) := by
    intro y
    have : InL L' s.begun y ↔ InL L' r y := by simp only [InL, ha]
    rw [this, p5, k.mem]
    show InL L s y ∧ _ ↔ _
    simp only [List.not_mem_nil, or_false]
    by_cases hq : s.off (s.owner y) <;> simp [hq]
  have hor : ∀ y, (y ∈ s.begun.cached ∨ InL L' s.begun y) → (y ∈ s.cached ∨ InL L s y) := by
    intro y; rw [e2, hi]; tauto
  have hinv : Inv L' [] s.begun := by
    refine h.inv.editArbs w ⟨p1.nodup, ?_, ?_, ?_, ?_, ?_⟩ ⟨?_, ?_, k.restNodup, ?_, ?_, ?_, ?_, ?_, ?_, ?_, ?_, ?_, ?_⟩ ?_
    · rw [hb]; exact p1.head
    · intro b; rw [hb]; exact p1.dl b
    · rw [ha]; exact p1.ends
    · rw [ha]; exact p1.both
    · rw [ha]; exact p1.out
    · intro x; rw [e1, hi, ho]; simp
    · rw [e1]; simp
    · simp
    · intro x hx; rw [hi] at hx; rw [e2, ho]; exact k.cachedIff x hx.1
    · rw [e2]; exact k.cachedNodup
    · intro x y hx hy; rw [hp, ea, eb]; exact k.uniq x y (hor x hx) (hor y hy)
    · intro x hx; rw [ea, eb, hA, hB, w.shapes, e4, e3]; exact k.live x (hor x hx)
    · rw [e3]; exact k.poolNodup
    · rw [e3, e4]; exact k.poolBound
    · rw [e1]; simp
    · intro x hx; rw [e6]; exact k.head x ((hi x).1 hx).1
    · intro x hx hpx
      rw [e4] at hx
      rw [e3] at hpx
      rw [e2, hi]
      rcases k.noLeak x hx hpx with e | e
      · exact Or.inl e
      · by_cases hof : s.off (s.owner x)
        · exact Or.inr ⟨e, hof⟩
        · exact Or.inl ((k.cachedIff x e).2 hof)
    · intro x hx; rw [hA, hB]; exact h.inv.closed.arb x ((hi x).1 hx).1
  have hcl : ∀ x, (s.begun.arbs x).state.closed ↔ (s.arbs x).state.closed := by
    intro x
    rw [p4' x]
    show (if x ∈ s.arbiters then ArbState.normal else (s.arbs x).state).closed ↔ _
    split_ifs with e
    · have hm := (k.mem x).1 e
      simp only [List.not_mem_nil, or_false] at hm
      have := h.tr.threaded x hm.1
      exact ⟨fun e => by simp [ArbState.closed] at e, fun e => absurd e this⟩
    · rfl
  refine ⟨L', ⟨hinv, ?_, ?_⟩, w, e1, fun x hx => ?_, e5, e7, e2, e3, e4, e8, e6, e9, p4', hi⟩
  · refine ⟨fun p q => ?_, fun x hx => ?_⟩
    · have := h.tr.agree p q
      obtain ⟨z, z1, z2⟩ := this
      refine ⟨z, by rw [e7]; exact z1, ?_⟩
      rw [z2]
      simp only [Open, e4, e3, hp, hcl]
    · rw [hcl]; exact h.tr.threaded x ((hi x).1 hx).1
  · intro x hx hpx
    rw [e4] at hx
    rw [e3] at hpx
    obtain ⟨v1, v2, v3⟩ := h.valid x hx hpx
    rw [hi, e5, p4' x]
    show (if x ∈ s.arbiters then ArbState.normal else (s.arbs x).state) ≠ _ ∧
      ((if x ∈ s.arbiters then ArbState.normal else (s.arbs x).state) = _ → _) ∧ (s.arbs x).stamp ≤ _
    split_ifs with hm
    · exact ⟨by simp, by simp, by omega⟩
    · refine ⟨v1, fun e => Or.inl ?_, by omega⟩
      have hil : InL L s x := by simpa using v2 e
      refine ⟨hil, ?_⟩
      by_contra hno
      exact hm ((k.mem x).2 (Or.inl ⟨hil, hno⟩))
  · rw [ho, w.off]; exact ((hi x).1 hx).2

end Sp
end CP
