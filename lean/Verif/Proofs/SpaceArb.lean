import Verif.Proofs.SpaceThread

/-! # Changing arbiters, and removing shapes -/

namespace CP
variable {F : Type}
namespace Sp

/-- Everything but arbiters, contact buffers, trace and stamp is the same. -/
structure Around (s t : Sp F) : Prop where
  nBodies : t.nBodies = s.nBodies
  nCons : t.nCons = s.nCons
  body : ∀ b, t.bodies b = { s.bodies b with arbs := (t.bodies b).arbs }
  shapes : t.shapes = s.shapes
  cons : t.cons = s.cons
  threshold : t.threshold = s.threshold
  staticBody : t.staticBody = s.staticBody
  dynamicBodies : t.dynamicBodies = s.dynamicBodies
  staticBodies : t.staticBodies = s.staticBodies
  roused : t.roused = s.roused
  sleeping : t.sleeping = s.sleeping
  staticShapes : t.staticShapes = s.staticShapes
  dynamicShapes : t.dynamicShapes = s.dynamicShapes
  constraints : t.constraints = s.constraints
  locked : t.locked = s.locked

namespace Around
theorem refl (s : Sp F) : Around s s :=
  ⟨rfl, rfl, fun _ => rfl, rfl, rfl, rfl, rfl, rfl, rfl, rfl, rfl, rfl, rfl, rfl, rfl⟩

theorem trans {s t u : Sp F} (h : Around s t) (k : Around t u) : Around s u where
  nBodies := k.nBodies.trans h.nBodies
  nCons := k.nCons.trans h.nCons
  body b := by have e := k.body b; rw [h.body b] at e; exact e
  shapes := k.shapes.trans h.shapes
  cons := k.cons.trans h.cons
  threshold := k.threshold.trans h.threshold
  staticBody := k.staticBody.trans h.staticBody
  dynamicBodies := k.dynamicBodies.trans h.dynamicBodies
  staticBodies := k.staticBodies.trans h.staticBodies
  roused := k.roused.trans h.roused
  sleeping := k.sleeping.trans h.sleeping
  staticShapes := k.staticShapes.trans h.staticShapes
  dynamicShapes := k.dynamicShapes.trans h.dynamicShapes
  constraints := k.constraints.trans h.constraints
  locked := k.locked.trans h.locked

variable {s t : Sp F} (h : Around s t)
include h
theorem root (b : Nat) : (t.bodies b).root = (s.bodies b).root := by rw [h.body b]
theorem next (b : Nat) : (t.bodies b).next = (s.bodies b).next := by rw [h.body b]
theorem idle (b : Nat) : (t.bodies b).idle = (s.bodies b).idle := by rw [h.body b]
theorem inSpace (b : Nat) : (t.bodies b).inSpace = (s.bodies b).inSpace := by rw [h.body b]
theorem infMass (b : Nat) : (t.bodies b).infMass = (s.bodies b).infMass := by rw [h.body b]
theorem shapeList (b : Nat) : (t.bodies b).shapes = (s.bodies b).shapes := by rw [h.body b]
theorem conHead (b : Nat) : (t.bodies b).cons = (s.bodies b).cons := by rw [h.body b]
theorem typ (b : Nat) : t.typ b = s.typ b := by simp only [Sp.typ]; rw [h.body b]; rfl
theorem off (b : Nat) : t.off b ↔ s.off b := off_congr h.root h.sleeping h.roused b
theorem isSleeping (b : Nat) : t.isSleeping b = s.isSleeping b := by simp only [Sp.isSleeping, h.root]
theorem bound {p q : Nat} : Bound t p q ↔ Bound s p q := by simp only [Bound, h.root, h.typ]
end Around

theorem ThEq.around {s t : Sp F} (h : ThEq s t) : Around s t := by
  constructor
  case body => exact h.body
  all_goals rw [h.eq]

theorem ArbFrame.around {s t : Sp F} (h : ArbFrame s t) : Around s t where
  nBodies := h.nBodies
  nCons := h.nCons
  body b := by rw [h.bodies]
  shapes := h.shapes
  cons := h.cons
  threshold := h.threshold
  staticBody := h.staticBody
  dynamicBodies := h.dynamicBodies
  staticBodies := h.staticBodies
  roused := h.roused
  sleeping := h.sleeping
  staticShapes := h.staticShapes
  dynamicShapes := h.dynamicShapes
  constraints := h.constraints
  locked := h.locked

theorem BodyInv.congr {A : Nat → Prop} {s t : Sp F} (h : BodyInv A s) (w : Around s t) : BodyInv A t where
  dynNodup := by rw [w.dynamicBodies]; exact h.dynNodup
  statNodup := by rw [w.staticBodies]; exact h.statNodup
  memDyn b := by rw [w.dynamicBodies, w.inSpace, w.typ]; exact h.memDyn b
  memStat b := by rw [w.staticBodies, w.inSpace, w.typ, w.staticBody]; exact h.memStat b
  off b := by rw [w.inSpace, w.typ]; exact h.off b
  bound b := by rw [w.inSpace, w.nBodies]; exact h.bound b

variable [GoFloat F]

/-- Only arbiters change. -/
theorem Inv.editArbs {L L' : Nat → List Nat} {rest rest' : List Nat} {s t : Sp F} (h : Inv L rest s)
    (w : Around s t) (th : ThreadInv L' t) (ar : ArbInv s.off L' rest' t)
    (cl : ∀ x, InL L' t x → Bound s (t.arbs x).bodyA (t.arbs x).bodyB ∧ Bound s (t.arbs x).bodyB (t.arbs x).bodyA) :
    Inv L' rest' t := by
  refine ⟨Full.of (A := s.off) ⟨h.full.core.body.congr w, ?_, ?_, th, ar⟩ ?_ ?_, ⟨?_, ?_⟩, ?_⟩
  · exact h.full.core.shape.congr w.typ w.shapeList w.shapes w.staticShapes w.dynamicShapes
  · exact h.full.core.con.congr w.typ w.conHead w.cons w.nCons w.constraints
  · exact h.full.sleep.congr w.root w.next w.sleeping w.roused w.locked
  · exact h.full.quiet.congr w.root w.sleeping
  · intro x hx; rw [w.bound, w.bound]; exact cl x hx
  · intro c hc; rw [w.cons] at hc ⊢; rw [w.bound, w.bound]; exact h.closed.con c hc
  · exact h.num.congr w.typ w.idle w.threshold w.sleeping w.staticBody (by rw [w.inSpace]; exact h.num.sb.1)

/-- Arbiters that only change their state, contacts or (outside the list of the step) stamp. -/
theorem Inv.touchArbs {L : Nat → List Nat} {rest : List Nat} {s t : Sp F} (h : Inv L rest s) (w : Around s t)
    (hb : ∀ b, (t.bodies b).arbs = (s.bodies b).arbs)
    (ha : ∀ x, t.arbs x = { s.arbs x with count := (t.arbs x).count, mem := (t.arbs x).mem, stamp := (t.arbs x).stamp,
                                          state := (t.arbs x).state })
    (h1 : t.arbiters = s.arbiters) (h2 : t.cached = s.cached) (h3 : t.arbBound = s.arbBound) (h4 : t.pool = s.pool)
    (h5 : ∀ x ∈ s.arbiters, (t.arbs x).stamp = t.stamp) (h6 : s.head ≠ none → t.head ≠ none) : Inv L rest t := by
  have hA : ∀ x, (t.arbs x).bodyA = (s.arbs x).bodyA := fun x => by rw [ha x]
  have hB : ∀ x, (t.arbs x).bodyB = (s.arbs x).bodyB := fun x => by rw [ha x]
  have ea : ∀ x, (t.arbs x).a = (s.arbs x).a := fun x => by rw [ha x]
  have eb : ∀ x, (t.arbs x).b = (s.arbs x).b := fun x => by rw [ha x]
  have hi : ∀ x, InL L t x ↔ InL L s x := fun x => by simp only [InL, hA]
  have ho : ∀ x, t.owner x = s.owner x := fun x => by simp only [owner, w.typ, hA, hB]
  have hp : ∀ a b x, t.samePair a b x = s.samePair a b x := fun a b x => by simp only [samePair, ea, eb]
  have hth : ∀ x b, t.thread x b = s.thread x b := fun x b => by simp only [thread]; rw [ha x]
  have k := h.full.core.arb
  refine h.editArbs w ⟨h.full.core.thread.nodup, fun b => ?_, fun b => ?_, fun b x => ?_, fun x => ?_, fun x => ?_⟩
    ⟨?_, ?_, k.restNodup, ?_, ?_, ?_, ?_, ?_, ?_, ?_, ?_, ?_, ?_⟩ ?_
  · rw [hb]; exact h.full.core.thread.head b
  · exact (h.full.core.thread.dl b).congr fun x _ => hth x b
  · rw [hA, hB]; exact h.full.core.thread.ends b x
  · rw [hA, hB]; exact h.full.core.thread.both x
  · rw [hA, ha x]; exact h.full.core.thread.out x
  · intro x; rw [h1, hi, ho]; exact k.mem x
  · rw [h1]; exact k.nodup
  · intro x; rw [hi, h2]; exact k.rest x
  · intro x; rw [hi, h2, ho]; exact k.cachedIff x
  · rw [h2]; exact k.cachedNodup
  · intro x y; rw [h2, hi, hi, hp, ea, eb]; exact k.uniq x y
  · intro x; rw [h2, hi, ea, eb, hA, hB, w.shapes, h3, h4]; exact k.live x
  · rw [h4]; exact k.poolNodup
  · rw [h4, h3]; exact k.poolBound
  · rw [h1]; exact h5
  · intro x; rw [hi]; exact fun e => h6 (k.head x e)
  · intro x; rw [h3, h4, h2, hi]; exact k.noLeak x
  · intro x; rw [hi, hA, hB]; exact h.closed.arb x

theorem emit_inv {L : Nat → List Nat} {rest : List Nat} {s : Sp F} (h : Inv L rest s) (k : EvKind) (x : Nat) :
    Inv L rest (s.emit k x) :=
  h.touchArbs ⟨rfl, rfl, fun _ => rfl, rfl, rfl, rfl, rfl, rfl, rfl, rfl, rfl, rfl, rfl, rfl, rfl⟩ (fun _ => rfl)
    (fun _ => rfl) rfl rfl rfl rfl h.full.core.arb.stamp id

/-- Taking an arbiter that is in the cache out of cache, lists and threads and putting it into the pool. -/
theorem Inv.drop {L : Nat → List Nat} {rest : List Nat} {s : Sp F} (h : Inv L rest s) {x : Nat} (hx : x ∈ s.cached)
    (hr : x ∉ rest) {t : Sp F} (ht : t = { s.unthread x with
      arbiters := s.arbiters.erase x, pool := s.pool ++ [x], cached := s.cached.erase x }) :
    Inv (popL L x) rest t ∧ Around s t ∧ (∀ y, InL (popL L x) t y ↔ y ≠ x ∧ InL L s y) ∧
      (∀ y, t.arbs y = { s.arbs y with thA := (t.arbs y).thA, thB := (t.arbs y).thB }) := by
  have k := h.full.core.arb
  have hne := (k.live x (Or.inl hx)).2.2.2.2.1
  obtain ⟨th, te, hin⟩ := unthread_thread h.full.core.thread (x := x) (fun _ => hne)
  have w : Around s t := by
    rw [ht]
    exact te.around.trans ⟨rfl, rfl, fun _ => rfl, rfl, rfl, rfl, rfl, rfl, rfl, rfl, rfl, rfl, rfl, rfl, rfl⟩
  have hbod : t.bodies = (s.unthread x).bodies := by rw [ht]
  have harb : t.arbs = (s.unthread x).arbs := by rw [ht]
  have e1 : t.arbiters = s.arbiters.erase x := by rw [ht]
  have e2 : t.cached = s.cached.erase x := by rw [ht]
  have e3 : t.pool = s.pool ++ [x] := by rw [ht]
  have e4 : t.arbBound = s.arbBound := by rw [ht, te.eq]
  have e5 : t.stamp = s.stamp := by rw [ht, te.eq]
  have e6 : t.head = s.head := by rw [ht, te.eq]
  have ha : ∀ y, t.arbs y = { s.arbs y with thA := (t.arbs y).thA, thB := (t.arbs y).thB } := by
    intro y; rw [harb]; exact te.arb y
  have hA : ∀ x, (t.arbs x).bodyA = (s.arbs x).bodyA := fun x => by rw [ha x]
  have hB : ∀ x, (t.arbs x).bodyB = (s.arbs x).bodyB := fun x => by rw [ha x]
  have ea : ∀ x, (t.arbs x).a = (s.arbs x).a := fun x => by rw [ha x]
  have eb : ∀ x, (t.arbs x).b = (s.arbs x).b := fun x => by rw [ha x]
  have es : ∀ x, (t.arbs x).stamp = (s.arbs x).stamp := fun x => by rw [ha x]
  have hi : ∀ y, InL (popL L x) t y ↔ y ≠ x ∧ InL L s y := fun y => by
    rw [← hin]; simp only [InL, harb]
  have ho : ∀ x, t.owner x = s.owner x := fun x => by simp only [owner, w.typ, hA, hB]
  have hp : ∀ a b x, t.samePair a b x = s.samePair a b x := fun a b x => by simp only [samePair, ea, eb]
  have mc : ∀ y, y ∈ t.cached ↔ y ≠ x ∧ y ∈ s.cached := fun y => by rw [e2]; exact k.cachedNodup.mem_erase_iff
  have ma : ∀ y, y ∈ t.arbiters ↔ y ≠ x ∧ y ∈ s.arbiters := fun y => by rw [e1]; exact k.nodup.mem_erase_iff
  have hor : ∀ y, (y ∈ t.cached ∨ InL (popL L x) t y) → y ≠ x ∧ (y ∈ s.cached ∨ InL L s y) := by
    intro y; rw [mc, hi]; tauto
  refine ⟨h.editArbs w ⟨th.nodup, ?_, ?_, ?_, ?_, ?_⟩ ⟨?_, ?_, k.restNodup, ?_, ?_, ?_, ?_, ?_, ?_, ?_, ?_, ?_, ?_⟩ ?_, w, hi, ha⟩
  · rw [hbod]; exact th.head
  · intro b; exact (th.dl b).congr fun y _ => by simp only [thread, harb]
  · rw [harb]; exact th.ends
  · rw [harb]; exact th.both
  · rw [harb]; exact th.out
  · intro y
    rw [ma, hi, ho, k.mem]
    constructor
    · rintro ⟨h1, ⟨h2, h3⟩ | h2⟩
      · exact Or.inl ⟨⟨h1, h2⟩, h3⟩
      · exact Or.inr h2
    · rintro (⟨⟨h1, h2⟩, h3⟩ | h2)
      · exact ⟨h1, Or.inl ⟨h2, h3⟩⟩
      · exact ⟨by rintro rfl; exact hr h2, Or.inr h2⟩
  · rw [e1]; exact k.nodup.erase x
  · intro y hy
    have := k.rest y hy
    have hyx : y ≠ x := by rintro rfl; exact hr hy
    rw [hi, mc]
    exact ⟨fun e => this.1 e.2, hyx, this.2⟩
  · intro y hy
    rw [hi] at hy
    rw [mc, ho, ← k.cachedIff y hy.2]
    exact ⟨fun e => e.2, fun e => ⟨hy.1, e⟩⟩
  · rw [e2]; exact k.cachedNodup.erase x
  · intro y z hy hz
    rw [hp, ea, eb]
    exact k.uniq y z (hor y hy).2 (hor z hz).2
  · intro y hy
    obtain ⟨hyx, hy⟩ := hor y hy
    rw [ea, eb, hA, hB, w.shapes, e4, e3]
    obtain ⟨l1, l2, l3, l4, l5, l6, l7⟩ := k.live y hy
    exact ⟨l1, l2, l3, l4, l5, l6, by simp [l7, hyx]⟩
  · rw [e3]; exact nodup_concat k.poolNodup (k.live x (Or.inl hx)).2.2.2.2.2.2
  · intro y; rw [e3, e4]
    intro hy
    rcases List.mem_append.1 hy with hy | hy
    · exact k.poolBound y hy
    · rw [List.mem_singleton.1 hy]; exact (k.live x (Or.inl hx)).2.2.2.2.2.1
  · intro y hy; rw [es, e5]; exact k.stamp y ((ma y).1 hy).2
  · intro y hy; rw [e6]; exact k.head y ((hi y).1 hy).2
  · intro y hy hp
    rw [e4] at hy
    rw [e3] at hp
    simp only [List.mem_append, List.mem_singleton, not_or] at hp
    rw [mc, hi]
    exact (k.noLeak y hy hp.1).imp (fun e => ⟨hp.2, e⟩) (fun e => ⟨hp.2, e⟩)
  · intro y hy; rw [hA, hB]; exact h.closed.arb y ((hi y).1 hy).2

end Sp
end CP
