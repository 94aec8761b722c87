import Verif.Spec.History
import Verif.Proofs.SpaceCollide

/-! # Collisions: one reported pair, and all of them -/

namespace CP
variable {F : Type}

namespace Sp

variable [GoFloat F]

/-- An arbiter kept for sleeping bodies has no shape in the dynamic index. -/
theorem Inv.inL_static {L : Nat → List Nat} {rest : List Nat} {s : Sp F} (h : Inv L rest s) (hr : s.roused = [])
    {y : Nat} (hy : InL L s y) (ho : s.off (s.owner y)) :
    (s.arbs y).a ∉ s.dynamicShapes ∧ (s.arbs y).b ∉ s.dynamicShapes := by
  obtain ⟨l1, l2, l3, l4, l5, l6, l7⟩ := h.full.core.arb.live y (Or.inr hy)
  obtain ⟨c1, c2⟩ := h.closed.arb y hy
  have offr : ∀ b, s.off b ↔ (s.bodies b).root ≠ none := fun b => by rw [h.full.off_iff, hr]; simp
  have hAB : (s.typ (s.arbs y).bodyA = .static ∨ s.off (s.arbs y).bodyA) ∧
      (s.typ (s.arbs y).bodyB = .static ∨ s.off (s.arbs y).bodyB) := by
    rcases owner_ends s y with e | e
    · rw [← e] at ho
      refine ⟨Or.inr ho, ?_⟩
      rcases c1 ((offr _).1 ho) with q | q
      · exact Or.inl q
      · right; rw [offr, q, ← offr]; exact ho
    · rw [← e] at ho
      refine ⟨?_, Or.inr ho⟩
      rcases c2 ((offr _).1 ho) with q | q
      · exact Or.inl q
      · right; rw [offr, q, ← offr]; exact ho
  rw [h.full.core.shape.memDyn, h.full.core.shape.memDyn, ← l1, ← l2]
  exact ⟨fun q => q.2 hAB.1, fun q => q.2 hAB.2⟩

/-- The state while the callbacks of pair `e` with arbiter `x` are made; `s0` is the state before. -/
structure Mid (L : Nat → List Nat) (s0 : Sp F) (e : CollideIn) (x : Nat) (s : Sp F) : Prop where
  inv : Inv L s0.arbiters s
  tr : TraceInv L s
  valid : Valid L (x :: s0.arbiters) s
  cached : x ∈ s.cached
  notRest : x ∉ s0.arbiters
  notIn : ¬ InL L s x
  opn : ¬ (s.arbs x).state.closed
  move : Move s0 s
  roots : ∀ b, (s.bodies b).root = (s0.bodies b).root
  locked : s.locked = 1
  roused : s.roused = []
  ends : (s.arbs x).a = e.a ∧ (s.arbs x).b = e.b
  others : ∀ y, y ≠ x → s.arbs y = s0.arbs y
  arbiters : s.arbiters = s0.arbiters
  stamp : s.stamp = s0.stamp
  mem : ∀ y, y ∈ s.cached ↔ y ∈ s0.cached ∨ y = x
  head : s.head ≠ none

theorem roused_nil {L : Nat → List Nat} {rest : List Nat} {s t : Sp F} (hs : Inv L rest s) (ht : Inv L rest t)
    (w : Woke s t) (hl : s.locked ≠ 0) (hr : s.roused = []) (e : ∀ b, (t.bodies b).root = (s.bodies b).root) :
    t.roused = [] := by
  by_contra hne
  obtain ⟨b, hb⟩ := List.exists_mem_of_ne_nil _ hne
  have h1 := ht.full.sleep.rousedRoot b hb
  have h2 : s.off b := (w.lockedOff hl b).1 (Or.inr hb)
  rw [hs.full.off_iff, hr, ← e b, h1] at h2
  simp at h2

theorem Mid.acts {L : Nat → List Nat} {s0 s : Sp F} {e : CollideIn} {x : Nat} (h : Mid L s0 e x s) (acts : List Nat)
    (ha : ∀ b ∈ acts, (s0.bodies b).root = none) : ∃ t, s.runActs acts = some t ∧ Mid L s0 e x t := by
  obtain ⟨t, et, it, w, -, rt⟩ := runActs_inv acts h.inv
  have hr := rt (fun b hb => by rw [h.roots]; exact ha b hb)
  have hl : s.locked ≠ 0 := by rw [h.locked]; simp
  have eq := w.lockedEq hl
  have ea : t.arbs = s.arbs := by rw [eq]
  have ec : t.cached = s.cached := by rw [eq]
  refine ⟨t, et, it, w.traceInv h.tr, w.valid h.valid, by rw [ec]; exact h.cached, h.notRest, by rw [w.inL]; exact h.notIn,
    by rw [ea]; exact h.opn, h.move.trans (w.move hl), fun b => (hr b).trans (h.roots b), by rw [w.locked]; exact h.locked,
    roused_nil h.inv it w hl h.roused hr, by rw [ea]; exact h.ends, by rw [ea]; exact h.others, ?_,
    w.stamp.trans h.stamp, by rw [ec]; exact h.mem, w.head h.head⟩
  rw [eq]; exact h.arbiters

/-- Only the arbiter of the pair changes, in fields that do not matter here. -/
theorem Mid.touch {L : Nat → List Nat} {s0 s t : Sp F} {e : CollideIn} {x : Nat} (h : Mid L s0 e x s)
    (ht : t = { s with arbs := t.arbs, bufs := t.bufs }) (ho : ∀ y, y ≠ x → t.arbs y = s.arbs y)
    (hx : t.arbs x = { s.arbs x with count := (t.arbs x).count, mem := (t.arbs x).mem, stamp := (t.arbs x).stamp, state := (t.arbs x).state })
    (h1 : ¬ (t.arbs x).state.closed) (h3 : (t.arbs x).stamp ≤ s.stamp) : Mid L s0 e x t := by
  have w : Around s t := by
    constructor
    case body => intro y; rw [ht]
    all_goals rw [ht]
  have ha : ∀ y, t.arbs y = { s.arbs y with count := (t.arbs y).count, mem := (t.arbs y).mem, stamp := (t.arbs y).stamp, state := (t.arbs y).state } := by
    intro y
    by_cases q : y = x
    · rw [q]; exact hx
    · rw [ho y q]
  have est : t.stamp = s.stamp := by rw [ht]
  have eca : t.cached = s.cached := by rw [ht]
  have ear : t.arbiters = s.arbiters := by rw [ht]
  have ebd : t.arbBound = s.arbBound := by rw [ht]
  have epo : t.pool = s.pool := by rw [ht]
  have hcl : ∀ y, (t.arbs y).state.closed ↔ (s.arbs y).state.closed := by
    intro y
    by_cases q : y = x
    · rw [q]; exact ⟨fun z => absurd z h1, fun z => absurd z h.opn⟩
    · rw [ho y q]
  have hi : ∀ y, InL L t y ↔ InL L s y := fun y => by simp only [InL]; rw [ha y]
  refine ⟨h.inv.touchArbs w (fun b => by rw [ht]) ha ear eca ebd epo (fun y hy => ?_) (by rw [ht]; exact id),
    h.tr.congr (by rw [ht]) ebd epo fun y => ?_, fun y hy hp => ?_, by rw [eca]; exact h.cached, h.notRest,
    by rw [hi]; exact h.notIn, h1, h.move.trans w.move, fun b => (w.root b).trans (h.roots b),
    by rw [w.locked]; exact h.locked, by rw [w.roused]; exact h.roused, by rw [ha x]; exact h.ends,
    fun y hy => (ho y hy).trans (h.others y hy), ear.trans h.arbiters, est.trans h.stamp, by rw [eca]; exact h.mem,
    by rw [ht]; exact h.head⟩
  · have : y ≠ x := by
      rintro rfl
      rw [h.arbiters] at hy
      exact h.notRest hy
    rw [ho y this, est]; exact h.inv.full.core.arb.stamp y hy
  · refine ⟨by rw [ha y], by rw [ha y], by rw [ha y], hcl y⟩
  · rw [ebd] at hy
    rw [epo] at hp
    obtain ⟨v1, v2, v3⟩ := h.valid y hy hp
    rw [hi, est]
    by_cases q : y = x
    · subst q
      refine ⟨?_, fun _ => Or.inr (by simp), h3⟩
      intro z; rw [z] at h1; exact h1 trivial
    · rw [ho y q]; exact ⟨v1, v2, v3⟩

theorem Mid.pre {L : Nat → List Nat} {s0 s : Sp F} {e : CollideIn} {x : Nat} (h : Mid L s0 e x s) :
    Mid L s0 e x (s.emit .preSolve x) := by
  obtain ⟨l1, l2, l3, l4, l5, l6, l7⟩ := h.inv.full.core.arb.live x (Or.inl h.cached)
  have w : Around s (s.emit .preSolve x) :=
    ⟨rfl, rfl, fun _ => rfl, rfl, rfl, rfl, rfl, rfl, rfl, rfl, rfl, rfl, rfl, rfl, rfl⟩
  exact ⟨emit_inv h.inv _ _, emit_trace h.inv h.tr (Or.inl rfl) l6 l7 h.opn, h.valid, h.cached, h.notRest, h.notIn,
    h.opn, h.move.trans w.move, h.roots, h.locked, h.roused, h.ends, h.others, h.arbiters, h.stamp, h.mem, h.head⟩

/-- The state of the loop over the reported pairs; `s0` is the state before it. -/
structure Col (L : Nat → List Nat) (s0 : Sp F) (done : List CollideIn) (s : Sp F) : Prop where
  good : Good L s.arbiters s
  offs : ∀ x, InL L s x → s.off (s.owner x)
  locked : s.locked = 1
  roused : s.roused = []
  head : s.head ≠ none
  move : Move s0 s
  roots : ∀ b, (s.bodies b).root = (s0.bodies b).root
  stamp : s.stamp = s0.stamp
  inl : ∀ y, InL L s y ↔ InL L s0 y
  listed : ∀ x ∈ s.arbiters, ∃ d ∈ done, s.samePair d.a d.b x = true
  seen : ∀ x ∈ s.cached, (s.arbs x).stamp = s.stamp → ∃ d ∈ done, d.count ≠ 0 ∧ s.samePair d.a d.b x = true
  hit : ∀ d ∈ done, d.count ≠ 0 → ∃ x ∈ s.cached, s.samePair d.a d.b x = true ∧ (s.arbs x).stamp = s.stamp ∧
    ¬ (s.arbs x).state.closed

/-- Only contact buffers change. -/
theorem Good.buffers {L : Nat → List Nat} {rest : List Nat} {s t : Sp F} (h : Good L rest s)
    (ht : t = { s with bufs := t.bufs, bufBound := t.bufBound, head := t.head }) (hh : s.head ≠ none → t.head ≠ none) :
    Good L rest t := by
  have w : Around s t := by
    constructor
    case body => intro y; rw [ht]
    all_goals rw [ht]
  have ea : t.arbs = s.arbs := by rw [ht]
  have est : t.stamp = s.stamp := by rw [ht]
  refine ⟨h.inv.touchArbs w (fun b => by rw [ht]) (fun y => by rw [ea]) (by rw [ht]) (by rw [ht]) (by rw [ht]) (by rw [ht])
    (fun y hy => by rw [ea, est]; exact h.inv.full.core.arb.stamp y hy) hh,
    h.tr.congr (by rw [ht]) (by rw [ht]) (by rw [ht]) fun y => by rw [ea]; exact ⟨rfl, rfl, rfl, .rfl⟩, ?_⟩
  have e1 : t.arbBound = s.arbBound := by rw [ht]
  have e2 : t.pool = s.pool := by rw [ht]
  intro y
  simp only [InL]
  rw [ea, e1, e2, est]; exact h.valid y

theorem Col.buffers {L : Nat → List Nat} {done : List CollideIn} {s0 s t : Sp F} (h : Col L s0 done s)
    (ht : t = { s with bufs := t.bufs, bufBound := t.bufBound, head := t.head }) (hh : t.head ≠ none) :
    Col L s0 done t := by
  have ea : t.arbs = s.arbs := by rw [ht]
  have est : t.stamp = s.stamp := by rw [ht]
  have eca : t.cached = s.cached := by rw [ht]
  have ear : t.arbiters = s.arbiters := by rw [ht]
  have w : Around s t := by
    constructor
    case body => intro y; rw [ht]
    all_goals rw [ht]
  have hi : ∀ y, InL L t y ↔ InL L s y := fun y => by simp only [InL, ea]
  have hp : ∀ a b y, t.samePair a b y = s.samePair a b y := fun a b y => by simp only [samePair, ea]
  refine ⟨by rw [ear]; exact h.good.buffers ht (fun _ => hh), fun y hy => ?_, by rw [w.locked]; exact h.locked,
    by rw [w.roused]; exact h.roused, hh, h.move.trans w.move, fun b => (w.root b).trans (h.roots b),
    est.trans h.stamp, fun y => (hi y).trans (h.inl y), ?_, ?_, ?_⟩
  · rw [w.off]
    have : t.owner y = s.owner y := by simp only [owner, w.typ, ea]
    rw [this]; exact h.offs y ((hi y).1 hy)
  · intro x hx; simp only [hp]; rw [ear] at hx; exact h.listed x hx
  · intro x hx; simp only [hp]; rw [eca] at hx; rw [ea, est]; exact h.seen x hx
  · intro d hd; simp only [hp, ea, est, eca]; exact h.hit d hd

end Sp
end CP
