import Verif.Proofs.SpaceFilter
import Verif.Proofs.SpaceCollide3
import Verif.Proofs.SpaceReset
import Verif.Proofs.SpacePass

/-! # `Step` as a whole -/

namespace CP
variable {F : Type}
namespace Sp

variable [GoFloat F]

/-- The state after the collision phase of a step. -/
structure Hits (L : Nat → List Nat) (i : StepIn F) (s u : Sp F) : Prop where
  good : Good L u.arbiters u
  keep : Keep s u
  shapes : u.shapes = s.shapes
  head : u.head ≠ none
  opens : ∀ x ∈ u.arbiters, ¬ (u.arbs x).state.closed
  offs : ∀ x, InL L u x → u.off (u.owner x)
  roots : ∀ b, (u.bodies b).root = (s.bodies b).root
  dynamicBodies : u.dynamicBodies = s.dynamicBodies
  idle : ∀ b, (u.bodies b).idle = (s.bodies b).idle ∨ (u.bodies b).idle = .time 0
  stamp : u.stamp = s.stamp + 1
  seen : ∀ x ∈ u.cached, (u.arbs x).stamp = u.stamp → ∃ d ∈ i.pairs, d.count ≠ 0 ∧ u.samePair d.a d.b x = true
  hit : ∀ d ∈ i.pairs, d.count ≠ 0 → ∃ x ∈ u.cached, u.samePair d.a d.b x = true ∧ (u.arbs x).stamp = u.stamp ∧
    ¬ (u.arbs x).state.closed

theorem pushFresh_eq (s : Sp F) : ∃ b n k, s.pushFresh = { s with bufs := b, bufBound := n, head := some k } := by
  simp only [pushFresh]
  split
  · exact ⟨_, _, _, rfl⟩
  · split_ifs
    · exact ⟨_, _, _, rfl⟩
    · exact ⟨_, _, _, rfl⟩

/-- The state in which the collision phase starts. -/
structure Start (L L' : Nat → List Nat) (i : StepIn F) (s v : Sp F) : Prop where
  col : Col L' v [] v
  pairs : ∀ e ∈ i.pairs, PairOk v e
  around : Around s s.begun
  move : Move s.begun.lock v
  roots : ∀ b, (v.bodies b).root = (s.bodies b).root
  stamp : v.stamp = s.stamp + 1
  arbs : v.arbs = s.begun.arbs
  trace : v.trace = s.trace
  pool : v.pool = s.pool
  arbBound : v.arbBound = s.arbBound
  arb : ∀ y, s.begun.arbs y = { s.arbs y with thA := (s.begun.arbs y).thA, thB := (s.begun.arbs y).thB, state := if y ∈ s.arbiters then .normal else (s.arbs y).state }
  inl : ∀ y, InL L' v y ↔ InL L s y ∧ s.off (s.owner y)
  empty : v.arbiters = []

set_option maxHeartbeats 2000000 in
theorem hits_start {L : Nat → List Nat} {s : Sp F} (h : Good L [] s) (hl : s.locked = 0) {i : StepIn F} (ok : StepOk s i) :
    ∃ v L', s.begun.lock.runActs i.posActs = some v ∧ Start L L' i s v.pushFresh := by
  obtain ⟨L', g0, w0, a0, o0, st0, tr0, ca0, po0, ab0, -, -, -, as0, in0⟩ := begun_good h hl
  have g1 := lock_good g0
  have hl1 : s.begun.lock.locked = 1 := by simp [lock, w0.locked, hl]
  have hl1' : s.begun.lock.locked ≠ 0 := by rw [hl1]; simp
  have hr1 : s.begun.lock.roused = [] := by
    show s.begun.roused = []
    rw [w0.roused]; exact h.inv.full.sleep.rouseLock hl
  have root1 : ∀ b, (s.begun.lock.bodies b).root = (s.bodies b).root := fun b => w0.root b
  obtain ⟨v, ev, iv, wv, -, rv⟩ := runActs_inv i.posActs g1.inv
  have rv' := rv (fun b hb => by rw [root1]; exact ok.pos b hb)
  have gv : Good L' [] v := ⟨iv, wv.traceInv g1.tr, wv.valid g1.valid⟩
  have hrv := roused_nil g1.inv iv wv hl1' hr1 rv'
  have eqv := wv.lockedEq hl1'
  have mv := wv.move hl1'
  obtain ⟨B, N, K, ef⟩ := pushFresh_eq v
  have gf : Good L' [] v.pushFresh := gv.buffers (by rw [ef]) (fun _ => by rw [ef]; simp)
  have hvarb : v.arbiters = [] := by rw [eqv]; exact a0
  have harb : v.pushFresh.arbiters = [] := by rw [ef]; exact hvarb
  have hoff : ∀ x, InL L' v.pushFresh x → v.pushFresh.off (v.pushFresh.owner x) := by
    rw [ef]
    intro x hx
    have hx' : InL L' v x := hx
    have hx2 : InL L' s.begun x := (wv.inL L' x).1 hx'
    have := o0 x hx2
    have e1 : v.off (v.owner x) ↔ s.begun.lock.off (v.owner x) := wv.lockedOff hl1' _
    have e2 : v.owner x = s.begun.owner x := by
      simp only [owner, wv.typ, (wv.arbs x).bodyA, (wv.arbs x).bodyB]; rfl
    show v.off (v.owner x)
    rw [e1, e2]; exact this
  have rootf : ∀ b, (v.pushFresh.bodies b).root = (s.bodies b).root := fun b => by
    rw [ef]; exact (rv' b).trans (root1 b)
  have shf : v.pushFresh.shapes = s.shapes := by rw [ef]; exact wv.shapes.trans w0.shapes
  have dsf : v.pushFresh.dynamicShapes = s.dynamicShapes := by rw [ef]; exact mv.dynamicShapes.trans w0.dynamicShapes
  have ibeg : s.begun.lock.stamp = s.stamp + 1 := st0
  have c0 : Col L' v.pushFresh [] v.pushFresh := by
    refine ⟨by rw [harb]; exact gf, hoff, by rw [ef]; exact wv.locked.trans hl1, by rw [ef]; exact hrv, by rw [ef]; simp,
      .refl _, fun _ => rfl, rfl, fun _ => .rfl, by rw [harb]; simp, ?_, by simp⟩
    intro x hx hst
    exfalso
    rw [ef] at hx hst
    have hx' : x ∈ v.cached := hx
    have hst' : (v.arbs x).stamp = v.stamp := hst
    have hx0 : x ∈ s.cached := by
      rw [eqv] at hx'
      have : x ∈ s.begun.cached := hx'
      rwa [ca0] at this
    rw [eqv] at hst'
    have hst2 : (s.begun.arbs x).stamp = s.begun.stamp := hst'
    rw [as0 x, st0] at hst2
    have hst3 : (s.arbs x).stamp = s.stamp + 1 := hst2
    obtain ⟨l1, l2, l3, l4, l5, l6, l7⟩ := h.inv.full.core.arb.live x (Or.inl hx0)
    have := (h.valid x l6 l7).2.2
    omega
  refine ⟨v, L', ev, c0, fun e he => ?_, w0, mv.trans ?_, rootf, ?_, ?_, ?_, ?_, ?_, as0, fun y => ?_, harb⟩
  · obtain ⟨p1, p2, p3, p4, p6, p5⟩ := ok.pairs e he
    exact ⟨by rw [shf]; exact p1, by rw [shf]; exact p2, by rw [shf]; exact p3, by rw [dsf]; exact p4, p6,
      fun b hb => by rw [rootf]; exact p5 b hb⟩
  · have w : Around v v.pushFresh := by
      constructor
      case body => intro y; rw [ef]
      all_goals rw [ef]
    exact w.move
  · rw [ef]; exact wv.stamp.trans ibeg
  · rw [ef]; show v.arbs = _; rw [eqv]; rfl
  · rw [ef]; show v.trace = _; rw [eqv]; exact tr0
  · rw [ef]; show v.pool = _; rw [eqv]; exact po0
  · rw [ef]; show v.arbBound = _; rw [eqv]; exact ab0
  · rw [← in0 y, ef]; show InL L' v y ↔ _
    exact wv.inL L' y

set_option maxHeartbeats 2000000 in
theorem hits_full {L : Nat → List Nat} {s : Sp F} (h : Good L [] s) (hl : s.locked = 0) {i : StepIn F} (ok : StepOk s i) :
    ∃ v L' u, s.begun.lock.runActs i.posActs = some v ∧ Start L L' i s v.pushFresh ∧ i.pairs.foldlM collide v.pushFresh = some u ∧
      u.unlock = some { u with locked := 0 } ∧ Hits L' i s { u with locked := 0 } := by
  obtain ⟨v, L', ev, st⟩ := hits_start h hl ok
  have c0 := st.col
  have w0 := st.around
  have m0 := st.move
  have rootf := st.roots
  have stf := st.stamp
  obtain ⟨u, eu, cu⟩ := collide_loop i.pairs [] v.pushFresh c0
    st.pairs (by simp) ok.once
  simp only [List.nil_append] at cu
  obtain ⟨t, et, gt, smt, rt, dt, eqt⟩ := unlock_good cu.good cu.locked
  have eqt := eqt cu.roused
  have hopen : ∀ x ∈ u.arbiters, ¬ (u.arbs x).state.closed := by
    intro x hx
    have k := cu.good.inv.full.core.arb
    have hs := k.stamp x hx
    have hc : x ∈ u.cached := (k.rest x hx).2
    obtain ⟨d, hd, hn, hp⟩ := cu.seen x hc hs
    obtain ⟨y, hy, hpy, -, hcl⟩ := cu.hit d hd hn
    have : x = y := by
      refine k.uniq x y (Or.inl hc) (Or.inl hy) ?_
      rw [samePair_iff] at *; omega
    rw [this]; exact hcl
  refine ⟨v, L', u, ev, st, eu, by rw [et, eqt], ?_⟩
  · have m1 : Move s.begun.lock u := m0.trans cu.move
    have k1 := m1.keep
    have k0 := w0.move.keep
    have ks : Keep s { u with locked := 0 } :=
      ⟨k1.nBodies.trans k0.nBodies, k1.nCons.trans k0.nCons, fun b => (k1.typ b).trans (k0.typ b),
        fun b => (k1.infMass b).trans (k0.infMass b), fun b => (k1.inSpace b).trans (k0.inSpace b),
        fun b => (k1.conHead b).trans (k0.conHead b),
        fun x => ⟨(k1.shapeBody x).1.trans (k0.shapeBody x).1, (k1.shapeBody x).2.trans (k0.shapeBody x).2⟩,
        k1.cons.trans k0.cons, k1.threshold.trans k0.threshold, k1.staticBody.trans k0.staticBody, hl.symm⟩
    rw [eqt] at gt
    refine ⟨gt, ks, m1.shapes.trans w0.shapes, cu.head, hopen, cu.offs, fun b => (cu.roots b).trans (rootf b),
      m1.dynamicBodies.trans w0.dynamicBodies, ?_, ?_, cu.seen, cu.hit⟩
    · intro b
      rcases m1.idle b with e | e
      · left; exact e.trans (w0.idle b)
      · right; exact e
    · exact cu.stamp.trans stf

theorem hits_good {L : Nat → List Nat} {s : Sp F} (h : Good L [] s) (hl : s.locked = 0) {i : StepIn F} (ok : StepOk s i) :
    ∃ u L', (do
      let s ← s.begun.lock.runActs i.posActs
      let s ← i.pairs.foldlM collide s.pushFresh
      s.unlock) = some u ∧ Hits L' i s u := by
  obtain ⟨v, L', u, ev, -, eu, et, hh⟩ := hits_full h hl ok
  refine ⟨_, L', ?_, hh⟩
  rw [ev]
  show (i.pairs.foldlM collide v.pushFresh).bind _ = _
  rw [eu]; exact et

/-- The PostSolve callbacks. -/
theorem postSolve_loop {L : Nat → List Nat} : ∀ (l : List Nat) (s : Sp F), Good L [] s → (∀ x ∈ l, InL L s x) →
    ∃ tr, l.foldl (fun s x => s.emit .postSolve x) s = { s with trace := tr } ∧ Good L [] ({ s with trace := tr } : Sp F) ∧
      tr = s.trace ++ l.map fun x => ⟨.postSolve, (s.arbs x).a, (s.arbs x).b, s.stamp⟩
  | [], s, g, _ => ⟨s.trace, rfl, g, by simp⟩
  | x :: l, s, g, h => by
    have hx := h x (by simp)
    obtain ⟨l1, l2, l3, l4, l5, l6, l7⟩ := g.inv.full.core.arb.live x (Or.inr hx)
    have g1 : Good L [] (s.emit .postSolve x) := ⟨emit_inv g.inv _ _, emit_trace g.inv g.tr (Or.inr rfl) l6 l7 (g.tr.threaded x hx), g.valid⟩
    obtain ⟨tr, e, g2, e2⟩ := postSolve_loop l _ g1 (fun y hy => h y (by simp [hy]))
    refine ⟨tr, ?_, g2, ?_⟩
    · rw [List.foldl_cons, e]; rfl
    · rw [e2]; simp [emit]

/-- The second half of a step, after `ProcessComponents`. -/
structure Tail (L : Nat → List Nat) (quiet : Prop) (s t : Sp F) : Prop where
  keep : Keep s t
  shapes : t.shapes = s.shapes
  stamp : t.stamp = s.stamp
  ends : SameEnds s t
  inl : ∀ y, InL L t y ↔ InL L s y
  root : ∀ b, (t.bodies b).root = (s.bodies b).root ∨ (t.bodies b).root = none
  roots : quiet → ∀ b, (t.bodies b).root = (s.bodies b).root
  idle : ∀ b, (t.bodies b).idle = (s.bodies b).idle ∨ (t.bodies b).idle = .time 0
  idles : quiet → ∀ b, (t.bodies b).idle = (s.bodies b).idle
  opens : ∀ p q x, Open s p q x → (s.arbs x).stamp = s.stamp → Open t p q x
  closes : ∀ p q x, Open t p q x → Open s p q x ∧ (x ∈ s.cached → (s.arbs x).stamp = s.stamp ∨ Exempt s x)
  stays : quiet → ∀ p q x, Open s p q x → (x ∈ s.cached → Exempt s x) → Open t p q x
  states : ∀ p q x, Open t p q x → (t.arbs x).state = (s.arbs x).state
  emits : ∃ sep, t.trace = s.trace ++ (sep ++ s.arbiters.map fun x => ⟨.postSolve, (s.arbs x).a, (s.arbs x).b, s.stamp⟩) ∧
    ∀ e ∈ sep, e.kind = .separate
  bodies : quiet → t.bodies = s.bodies

theorem tail_good {L : Nat → List Nat} {s : Sp F} (h : Good L [] s) (hl : s.locked = 0) (acts : Nat → List Nat)
    (late : List Nat) :
    ∃ t, (do
      let s ← filterCached (setFilter acts) s.lock
      let s ← (s.arbiters.foldl (fun s x => s.emit .postSolve x) s).runActs late
      s.unlock) = some t ∧ Good L [] t ∧ Tail L ((∀ y, acts y = []) ∧ late = []) s t := by
  have g1 := lock_good h
  have hl1 : s.lock.locked = 1 := by simp [lock, hl]
  have hl1' : s.lock.locked ≠ 0 := by rw [hl1]; simp
  obtain ⟨u, eu, gu, fu⟩ := filterCached_good g1 hl1' acts
  obtain ⟨tr, ev, gv, etr⟩ := postSolve_loop u.arbiters u gu (fun x hx => by
    have := (gu.inv.full.core.arb.mem x).1 hx
    simpa using (this.resolve_right (by simp)).1)
  obtain ⟨w, ew, iw, ww, -, rw'⟩ := runActs_inv late gv.inv
  have gw : Good L [] w := ⟨iw, ww.traceInv gv.tr, ww.valid gv.valid⟩
  have hlw : w.locked = 1 := ww.locked.trans (fu.move.locked.trans hl1)
  obtain ⟨t, et, gt, smt, -⟩ := unlock_good gw hlw
  have mv : Move s.lock w := fu.move.trans (Move.trans (Around.move (t := ({ u with trace := tr } : Sp F))
    ⟨rfl, rfl, fun _ => rfl, rfl, rfl, rfl, rfl, rfl, rfl, rfl, rfl, rfl, rfl, rfl, rfl⟩) (ww.move (by
      show u.locked ≠ 0; rw [fu.move.locked]; exact hl1')))
  refine ⟨t, ?_, gt, ?_⟩
  · rw [eu]
    show ((u.arbiters.foldl (fun s x => s.emit .postSolve x) u).runActs late).bind _ = _
    rw [ev, ew]; exact et
  · have hlu : ({ u with trace := tr } : Sp F).locked ≠ 0 := by
      show u.locked ≠ 0; rw [fu.move.locked]; exact hl1'
    have eqw := ww.lockedEq hlu
    have eaw : w.arbs = u.arbs := by rw [eqw]
    have hop : ∀ p q x, Open t p q x ↔ Open u p q x := by
      intro p q x
      have e1 : t.samePair p q x = u.samePair p q x := by
        simp only [samePair, (smt.arbs x).a, (smt.arbs x).b]
        show _ = _
        rw [eaw]
      have e2 : (t.arbs x).state = (u.arbs x).state := by
        rw [(smt.arbs x).state]; show (w.arbs x).state = _; rw [eaw]
      have e3 : t.pool = u.pool := by rw [smt.pool]; show w.pool = _; rw [eqw]
      have e4 : t.arbBound = u.arbBound := by rw [smt.arbBound]; show w.arbBound = _; rw [eqw]
      simp only [Open, e1, e2, e3, e4]
    have hpar : ∀ p q x, u.samePair p q x = s.samePair p q x := by
      intro p q x
      simp only [samePair, (fu.ends x).1, (fu.ends x).2.1]; rfl
    have hbod : ((∀ y, acts y = []) ∧ late = []) → t.bodies = s.bodies := by
      rintro ⟨q1, q2⟩
      subst q2
      obtain rfl : ({ u with trace := tr } : Sp F) = w := Option.some.inj ew
      rw [smt.bodies]
      exact fu.bodies q1
    have k1 := mv.keep
    have k2 := smt.keep
    refine ⟨?_, smt.shapes.trans mv.shapes, ?_, ?_, ?_, ?_, fun q b => by rw [hbod q], ?_, fun q b => by rw [hbod q], ?_, ?_, ?_, ?_, ?_, hbod⟩
    · exact ⟨k2.nBodies.trans k1.nBodies, k2.nCons.trans k1.nCons, fun b => (k2.typ b).trans (k1.typ b),
        fun b => (k2.infMass b).trans (k1.infMass b), fun b => (k2.inSpace b).trans (k1.inSpace b),
        fun b => (k2.conHead b).trans (k1.conHead b),
        fun x => ⟨(k2.shapeBody x).1.trans (k1.shapeBody x).1, (k2.shapeBody x).2.trans (k1.shapeBody x).2⟩,
        k2.cons.trans k1.cons, k2.threshold.trans k1.threshold, k2.staticBody.trans k1.staticBody, k2.locked.trans hl.symm⟩
    · exact smt.stamp.trans (ww.stamp.trans fu.stamp)
    · intro y
      obtain ⟨p1, p2, p3, p4⟩ := fu.ends y
      refine ⟨?_, ?_, ?_, ?_⟩
      · rw [(smt.arbs y).a]; show (w.arbs y).a = _; rw [eaw]; exact p1
      · rw [(smt.arbs y).b]; show (w.arbs y).b = _; rw [eaw]; exact p2
      · rw [(smt.arbs y).bodyA]; show (w.arbs y).bodyA = _; rw [eaw]; exact p3
      · rw [(smt.arbs y).bodyB]; show (w.arbs y).bodyB = _; rw [eaw]; exact p4
    · intro y
      rw [smt.inL]
      show InL L w y ↔ _
      rw [ww.inL]
      exact fu.inl y
    · intro b; rw [smt.bodies]; exact mv.root b
    · intro b; rw [smt.bodies]; exact mv.idle b
    · intro p q x ho hst
      rw [hop]
      obtain ⟨o1, o2, o3, o4⟩ := ho
      by_cases hc : x ∈ s.cached
      · rcases fu.eff x hc with ⟨f1, f2, f3, f4⟩ | ⟨f1, f2⟩
        · exact ⟨by rw [fu.arbBound]; exact o1, f3, by rw [f1]; exact o3, by rw [hpar]; exact o4⟩
        · have f2' : (s.arbs x).stamp < s.stamp := f2.1
          omega
      · obtain ⟨f1, f2, f3⟩ := fu.same x hc
        exact ⟨by rw [fu.arbBound]; exact o1, fun e => o2 (f3.1 e), by rw [f1]; exact o3, by rw [hpar]; exact o4⟩
    · intro p q x ho
      rw [hop] at ho
      obtain ⟨o1, o2, o3, o4⟩ := ho
      by_cases hc : x ∈ s.cached
      · rcases fu.eff x hc with ⟨f1, f2, f3, f4⟩ | ⟨f1, f2⟩
        · have o3' : ¬ (s.arbs x).state.closed := by rw [f1] at o3; exact o3
          refine ⟨⟨by rw [fu.arbBound] at o1; exact o1, ?_, o3', by rw [hpar] at o4; exact o4⟩, fun _ => ?_⟩
          · exact (h.inv.full.core.arb.live x (Or.inl hc)).2.2.2.2.2.2
          · rcases f4 with f4 | f4 | f4
            · exact .inl f4
            · exact .inr f4
            · exact absurd f4 o3'
        · exact absurd f1 o3
      · obtain ⟨f1, f2, f3⟩ := fu.same x hc
        refine ⟨⟨by rw [fu.arbBound] at o1; exact o1, fun e => o2 (f3.2 e), by rw [f1] at o3; exact o3, by rw [hpar] at o4; exact o4⟩,
          fun e => absurd e hc⟩
    · intro q p r x ho hex
      rw [hop]
      obtain ⟨o1, o2, o3, o4⟩ := ho
      by_cases hc : x ∈ s.cached
      · rcases fu.eff x hc with ⟨f1, f2, f3, f4⟩ | ⟨f1, f2, f3⟩
        · exact ⟨by rw [fu.arbBound]; exact o1, f3, by rw [f1]; exact o3, by rw [hpar]; exact o4⟩
        · exact absurd (hex hc) (f3 q.1)
      · obtain ⟨f1, f2, f3⟩ := fu.same x hc
        exact ⟨by rw [fu.arbBound]; exact o1, fun e => o2 (f3.1 e), by rw [f1]; exact o3, by rw [hpar]; exact o4⟩
    · intro p q x ho
      rw [hop] at ho
      have e2 : (t.arbs x).state = (u.arbs x).state := by
        rw [(smt.arbs x).state]; show (w.arbs x).state = _; rw [eaw]
      rw [e2]
      by_cases hc : x ∈ s.cached
      · rcases fu.eff x hc with ⟨f1, f2, f3, f4⟩ | ⟨f1, f2⟩
        · rw [f1]; rfl
        · exact absurd f1 ho.2.2.1
      · rw [(fu.same x hc).1]; rfl
    · obtain ⟨sep, e1, e2⟩ := fu.emits
      refine ⟨sep, ?_, e2⟩
      have e3 : t.trace = w.trace := smt.trace
      have e4 : w.trace = tr := by rw [eqw]
      rw [e3, e4, etr, e1, fu.arbiters, List.append_assoc]
      have e5 : (s.lock.arbiters.map fun x => (⟨.postSolve, (u.arbs x).a, (u.arbs x).b, u.stamp⟩ : Ev)) =
          s.arbiters.map fun x => ⟨.postSolve, (s.arbs x).a, (s.arbs x).b, s.stamp⟩ :=
        List.map_congr_left fun x _ => by rw [(fu.ends x).1, (fu.ends x).2.1, fu.stamp]; rfl
      rw [e5]; rfl

/-- Links depend only on which arbiters are in the lists. -/
theorem linked_congr {L L' : Nat → List Nat} {s t : Sp F} (hs : Inv L [] s) (ht : Inv L' [] t) (he : SameEnds s t)
    (hi : ∀ y, InL L' t y ↔ InL L s y) (hc : t.cons = s.cons) (b c : Nat) : t.Linked b c ↔ s.Linked b c := by
  obtain ⟨N, -, n1, n2⟩ := hs.full.core.graph
  obtain ⟨M, -, m1, m2⟩ := ht.full.core.graph
  rw [← n1, ← m1, n2, m2, hc]
  have : ∀ x, (t.arbs x).bodyA = (s.arbs x).bodyA ∧ (t.arbs x).bodyB = (s.arbs x).bodyB := fun x => ⟨(he x).2.2.1, (he x).2.2.2⟩
  simp only [hi, (this _).1, (this _).2]

theorem connected_congr {L L' : Nat → List Nat} {s t : Sp F} (hs : Inv L [] s) (ht : Inv L' [] t) (he : SameEnds s t)
    (hi : ∀ y, InL L' t y ↔ InL L s y) (hc : t.cons = s.cons) (hty : ∀ b, t.typ b = s.typ b) (b c : Nat) :
    t.Connected b c ↔ s.Connected b c := by
  simp only [Connected, linked_congr hs ht he hi hc, hty]

/-- What one step achieves. -/
structure Stepped (i : StepIn F) (s t : Sp F) : Prop where
  keep : Keep s t
  shapes : t.shapes = s.shapes
  stamp : t.stamp = s.stamp + 1
  /-- pairs with contacts touch -/
  touch : ∀ d ∈ i.pairs, d.count ≠ 0 → proto d.a d.b t.trace = some true
  /-- pairs without contacts do not, unless their bodies sleep -/
  apart : (∀ y, i.sepActs y = []) → i.lateActs = [] → ∀ p q, proto p q t.trace = some true →
    (s.typ (s.shapes p).body ≠ .static ∧ (s.bodies (s.shapes p).body).root = none ∧ (t.bodies (s.shapes p).body).root = none) →
    ∃ d ∈ i.pairs, d.count ≠ 0 ∧ ((d.a = p ∧ d.b = q) ∨ (d.a = q ∧ d.b = p))
  idle : ∀ b, (t.bodies b).idle = .time 0 ∨
    ((t.bodies b).idle = if s.sleepOn = true ∧ s.typ b = .dynamic ∧ b ∈ s.dynamicBodies then s.idleAfter i.dt i.moving b else (s.bodies b).idle) ∨
    (i.moving b = false ∧ (t.bodies b).idle = .time (0 + i.dt))
  /-- who falls asleep -/
  sleep : (∀ y, i.sepActs y = []) → i.lateActs = [] → ∀ b, (s.bodies b).root = none → s.typ b = .dynamic → (s.bodies b).inSpace = true →
    ((t.bodies b).root ≠ none ↔ ∀ c, t.Connected b c → ((t.bodies c).idle).lt t.threshold = false)
  group : (∀ y, i.sepActs y = []) → i.lateActs = [] → ∀ b r, (s.bodies b).root = none → (t.bodies b).root = some r →
    ∀ c, t.Connected b c ↔ (t.bodies c).root = some r

theorem step_good {L : Nat → List Nat} {s : Sp F} (h : Good L [] s) (hl : s.locked = 0) (host : Hosted s) {i : StepIn F}
    (hdt : i.dt ≠ 0) (ok : StepOk s i) : ∃ t L', s.step i = some t ∧ Good L' [] t ∧ Stepped i s t := by
  obtain ⟨u, L1, eu, hu⟩ := hits_good h hl ok
  have host1 : Hosted u := host.congr hu.keep.typ hu.keep.inSpace hu.shapes hu.keep.cons
  obtain ⟨v, L2, ev, gv, pv, iv, sv, cv⟩ := processComponents_good hu.good (hu.keep.locked.trans hl) hu.head hu.opens host1 hu.offs i.dt i.moving
  have hlv : v.locked = 0 := pv.keep.locked.trans (hu.keep.locked.trans hl)
  obtain ⟨t, et, gt, tt⟩ := tail_good gv hlv i.sepActs i.lateActs
  refine ⟨t, L2, ?_, gt, ?_⟩
  · simp only [step]
    rw [if_neg hdt]
    simp only [Option.bind_eq_bind, Option.bind_eq_some_iff] at eu et ⊢
    obtain ⟨w1, e1, w2, e2, e3⟩ := eu
    obtain ⟨w4, e4, w5, e5, e6⟩ := et
    exact ⟨w1, e1, w2, e2, u, e3, v, ev, w4, e4, w5, e5, e6⟩
  have kk := (hu.keep.trans pv.keep).trans tt.keep
  have hst : ∀ x, (u.arbs x).stamp = u.stamp → (v.arbs x).stamp = v.stamp := by
    intro x hx
    rw [pv.stamp]
    rcases pv.stamps x with e | e
    · rw [e, hx]
    · exact e.1
  have hpar : ∀ p q x, v.samePair p q x = u.samePair p q x := by
    intro p q x
    simp only [samePair, (pv.arbs x).1, (pv.arbs x).2.1]
  refine ⟨kk, tt.shapes.trans (pv.shapes.trans hu.shapes), tt.stamp.trans (pv.stamp.trans hu.stamp), ?_, ?_, ?_, ?_, ?_⟩
  · intro d hd hn
    obtain ⟨x, hc, hp, hs, ho⟩ := hu.hit d hd hn
    obtain ⟨z, e, hz⟩ := gt.tr.agree d.a d.b
    rw [e]
    congr 1
    rw [hz]
    obtain ⟨l1, l2, l3, l4, l5, l6, l7⟩ := hu.good.inv.full.core.arb.live x (Or.inl hc)
    refine ⟨x, tt.opens _ _ x ⟨by rw [pv.arbBound]; exact l6, by rw [pv.pool]; exact l7, by rw [(pv.arbs x).2.2.2.2.2]; exact ho, by rw [hpar]; exact hp⟩ (hst x hs)⟩
  · intro q1 q2 p q hp ⟨n1, n2, n3⟩
    have hq := tt.roots ⟨q1, q2⟩
    obtain ⟨z, e, hz⟩ := gt.tr.agree p q
    have hz' : z = true := by rw [hp] at e; exact (Option.some.inj e).symm
    obtain ⟨x, hx⟩ := hz.1 hz'
    obtain ⟨hv, hc⟩ := tt.closes p q x hx
    have hin := gv.inv.full.core.arb.noLeak x hv.1 hv.2.1
    obtain ⟨l1, l2, l3, l4, l5, l6, l7⟩ := gv.inv.full.core.arb.live x hin
    set B := (s.shapes p).body with hB
    have hshv : v.shapes = s.shapes := pv.shapes.trans hu.shapes
    have hty : ∀ b, v.typ b = s.typ b := fun b => (pv.keep.typ b).trans (hu.keep.typ b)
    have hend : (v.arbs x).bodyA = B ∨ (v.arbs x).bodyB = B := by
      rw [hshv] at l1 l2
      rcases (samePair_iff v p q x).1 hv.2.2.2 with ⟨e1, e2⟩ | ⟨e1, e2⟩
      · left; rw [l1, e1]
      · right; rw [l2, e2]
    have hBv : (v.bodies B).root = none := by rw [← hq]; exact n3
    have hnex : ¬ Exempt v x := by
      rintro ⟨x1, x2⟩
      rcases hend with e | e
      · rw [e, hty, hBv] at x1; tauto
      · rw [e, hty, hBv] at x2; tauto
    have bothOff : ∀ {L : Nat → List Nat} {rest : List Nat} {w : Sp F}, Inv L rest w → w.locked = 0 → InL L w x → w.off (w.owner x) → Exempt w x := by
      intro L rest w i hlw hi ho
      rw [i.off_iff hlw] at ho
      obtain ⟨c1, c2⟩ := i.closed.arb x hi
      by_cases hA : w.typ (w.arbs x).bodyA = .static
      · have e : w.owner x = (w.arbs x).bodyB := by simp [owner, hA]
        rw [e] at ho
        exact ⟨.inl hA, .inr ho⟩
      · have e : w.owner x = (w.arbs x).bodyA := by simp [owner, hA]
        rw [e] at ho
        refine ⟨.inr ho, ?_⟩
        rcases c1 ho with e | e
        · exact .inl e
        · exact .inr (by rw [e]; exact ho)
    have hxc : x ∈ v.cached := by
      rcases hin with e | e
      · exact e
      · refine (gv.inv.full.core.arb.cachedIff x e).2 fun ho => hnex (bothOff gv.inv hlv e ho)
    have hsv := (hc hxc).resolve_right hnex
    have hlu : u.locked = 0 := hu.keep.locked.trans hl
    have hsu : (u.arbs x).stamp = u.stamp ∧ x ∈ u.cached := by
      have hcu : x ∈ u.cached ∨ InL L1 u x := hu.good.inv.full.core.arb.noLeak x (by rw [← pv.arbBound]; exact hv.1) (by rw [← pv.pool]; exact hv.2.1)
      have hni : ¬ InL L1 u x := by
        intro hi
        have := bothOff hu.good.inv hlu hi (hu.offs x hi)
        obtain ⟨x1, x2⟩ := this
        have hBu : (u.bodies B).root = none := by rw [hu.roots]; exact n2
        rw [← (pv.arbs x).2.2.1, hu.keep.typ] at x1
        rw [← (pv.arbs x).2.2.2.1, hu.keep.typ] at x2
        rcases hend with e | e
        · rw [e, hBu] at x1; tauto
        · rw [e, hBu] at x2; tauto
      refine ⟨?_, hcu.resolve_right hni⟩
      rcases pv.stamps x with e | ⟨e, e2⟩
      · rw [← e, hsv, pv.stamp]
      · exact hu.good.inv.full.core.arb.stamp x (e2.resolve_left hni)
    obtain ⟨d, hd, hn, hpd⟩ := hu.seen x hsu.2 hsu.1
    refine ⟨d, hd, hn, ?_⟩
    have h3 := hv.2.2.2
    rw [hpar] at h3
    rw [samePair_iff] at h3 hpd
    omega
  · intro b
    have hon : u.sleepOn = s.sleepOn := by simp only [sleepOn, hu.keep.threshold]
    rcases tt.idle b with e | e
    · rw [e]
      rcases iv b with e2 | e2
      · exact .inl e2
      · rw [e2, hon, hu.keep.typ, hu.dynamicBodies]
        rcases hu.idle b with e3 | e3
        · right; left
          simp only [idleAfter, e3]
        · split_ifs with hc
          · simp only [idleAfter, e3]
            by_cases hm : i.moving b = true
            · left; rw [if_pos hm]
            · right; right
              rw [if_neg hm]; exact ⟨by simpa using hm, rfl⟩
          · left; exact e3
    · exact .inl e
  · intro q1 q2 b h1 h2 h3
    have hq : (∀ y, i.sepActs y = []) ∧ i.lateActs = [] := ⟨q1, q2⟩
    rw [tt.roots hq, sv b (by rw [hu.roots]; exact h1) (by rw [hu.keep.typ]; exact h2) (by rw [hu.keep.inSpace]; exact h3)]
    simp only [connected_congr gv.inv gt.inv tt.ends tt.inl tt.keep.cons tt.keep.typ, tt.idles hq, tt.keep.threshold]
  · intro q1 q2 b r h1 h2 c
    have hq : (∀ y, i.sepActs y = []) ∧ i.lateActs = [] := ⟨q1, q2⟩
    rw [connected_congr gv.inv gt.inv tt.ends tt.inl tt.keep.cons tt.keep.typ, tt.roots hq]
    exact cv b r (by rw [hu.roots]; exact h1) (by rw [← tt.roots hq]; exact h2) c

end Sp
end CP
